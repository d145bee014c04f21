/-
C85: the list of merge requests.
-/
import Verif.Spec.MergeRequests
import Verif.Props.BranchList
import Verif.Props.PageOther

namespace Swc

open Spec

/-! ### Order -/

theorem insertMr_perm (x : MergeRequest) (l : List MergeRequest) : (insertMr x l).Perm (x :: l) := by
  induction l with
  | nil => exact .refl _
  | cons y l ih =>
    unfold insertMr
    split
    · exact .refl _
    · exact (ih.cons y).trans (.swap x y l)

theorem insertMr_sorted (x : MergeRequest) (l : List MergeRequest) (h : l.Pairwise fun a b => b.updated ≤ a.updated) :
    (insertMr x l).Pairwise fun a b => b.updated ≤ a.updated := by
  induction l with
  | nil => exact List.pairwise_singleton _ _
  | cons y l ih =>
    unfold insertMr
    rw [List.pairwise_cons] at h
    split
    · rename_i hy
      refine List.pairwise_cons.2 ⟨?_, List.pairwise_cons.2 h⟩
      intro z hz
      rcases List.mem_cons.1 hz with rfl | hz
      · exact hy
      · exact le_trans (h.1 z hz) hy
    · rename_i hy
      refine List.pairwise_cons.2 ⟨?_, ih h.2⟩
      intro z hz
      rcases List.mem_cons.1 ((insertMr_perm x l).mem_iff.1 hz) with rfl | hz
      · omega
      · exact h.1 z hz

theorem insertMr_stable (x : MergeRequest) (l : List MergeRequest) (t : Int) :
    (insertMr x l).filter (fun m => m.updated = t) = (x :: l).filter fun m => m.updated = t := by
  induction l with
  | nil => rfl
  | cons y l ih =>
    unfold insertMr
    split
    · rfl
    · rename_i hy
      rw [List.filter_cons, ih]
      simp only [List.filter_cons]
      by_cases h1 : y.updated = t
      · have h2 : x.updated ≠ t := by omega
        simp [h1, h2]
      · simp [h1]

theorem newestFirst_spec (data : List MergeRequest) : NewestFirst data (newestFirst data) := by
  induction data with
  | nil => exact ⟨.refl _, .nil, fun _ => rfl⟩
  | cons x l ih =>
    refine ⟨(insertMr_perm x _).trans (ih.perm.cons x), insertMr_sorted x _ ih.sorted, fun t => ?_⟩
    rw [newestFirst, insertMr_stable, List.filter_cons, List.filter_cons, ih.stable]

/-! ### Words -/

theorem isPrefixOf_map (w s : Str) : w.isPrefixOf (asciiLower s) = true ↔ ∃ v b, s = v ++ b ∧ v.map Char.toLower = w := by
  induction w generalizing s with
  | nil =>
    simp only [List.isPrefixOf_nil_left, true_iff]
    exact ⟨[], s, rfl, rfl⟩
  | cons d w ih =>
    cases s with
    | nil =>
      constructor
      · intro h; cases h
      · rintro ⟨v, b, h, hv⟩
        obtain ⟨rfl, rfl⟩ := List.append_eq_nil_iff.1 h.symm
        cases hv
    | cons c s =>
      unfold asciiLower
      rw [List.map_cons, List.isPrefixOf_cons₂, Bool.and_eq_true, beq_iff_eq]
      have := ih s
      unfold asciiLower at this
      rw [this]
      constructor
      · rintro ⟨rfl, v, b, rfl, rfl⟩
        exact ⟨c :: v, b, rfl, rfl⟩
      · rintro ⟨v, b, h, hv⟩
        cases v with
        | nil => cases hv
        | cons x v =>
          rw [List.map_cons] at hv
          injection h with h1 h2
          injection hv with h3 h4
          subst h1
          exact ⟨h3.symm, v, b, h2, h4⟩

theorem includes_iff (w s : Str) : includes w (asciiLower s) = true ↔ ∃ a v b, s = a ++ v ++ b ∧ v.map Char.toLower = w := by
  induction s with
  | nil =>
    show w.isPrefixOf (asciiLower []) = true ↔ _
    rw [isPrefixOf_map]
    constructor
    · rintro ⟨v, b, h, hv⟩
      exact ⟨[], v, b, h, hv⟩
    · rintro ⟨a, v, b, h, hv⟩
      obtain ⟨h1, rfl⟩ := List.append_eq_nil_iff.1 h.symm
      obtain ⟨rfl, rfl⟩ := List.append_eq_nil_iff.1 h1
      exact ⟨[], [], rfl, hv⟩
  | cons c s ih =>
    show (w.isPrefixOf (asciiLower (c :: s)) || includes w (asciiLower s)) = true ↔ _
    rw [Bool.or_eq_true, isPrefixOf_map, ih]
    constructor
    · rintro (⟨v, b, h, hv⟩ | ⟨a, v, b, rfl, hv⟩)
      · exact ⟨[], v, b, h, hv⟩
      · exact ⟨c :: a, v, b, rfl, hv⟩
    · rintro ⟨a, v, b, h, hv⟩
      cases a with
      | nil => exact .inl ⟨v, b, h, hv⟩
      | cons x a =>
        injection h with h1 h2
        exact .inr ⟨a, v, b, h2, hv⟩

theorem toLower_toNat (c : Char) : c.toLower.toNat = if 65 ≤ c.toNat ∧ c.toNat ≤ 90 then c.toNat + 32 else c.toNat := by
  unfold Char.toLower
  split
  · rename_i h
    have h1 : 65 ≤ c.toNat := UInt32.le_iff_toNat_le.1 h.1
    have h2 : c.toNat ≤ 90 := UInt32.le_iff_toNat_le.1 h.2
    rw [if_pos ⟨h1, h2⟩]
    show (c.val + ('a'.val - 'A'.val)).toNat = c.toNat + 32
    rw [UInt32.toNat_add, show ('a'.val - 'A'.val).toNat = 32 by decide]
    show (c.toNat + 32) % 2 ^ 32 = _
    omega
  · rename_i h
    rw [if_neg]
    rintro ⟨h1, h2⟩
    exact h ⟨UInt32.le_iff_toNat_le.2 h1, UInt32.le_iff_toNat_le.2 h2⟩

theorem toLower_letter {d : Char} (hd : 0x61 ≤ d.toNat ∧ d.toNat ≤ 0x7A) (c : Char) : c.toLower = d ↔ LetterOf d c := by
  unfold LetterOf
  rw [← Char.toNat_inj, ← Char.toNat_inj (c := c), toLower_toNat]
  split <;> omega

theorem lower_forall {w : Str} (hw : ∀ d ∈ w, 0x61 ≤ d.toNat ∧ d.toNat ≤ 0x7A) (v : Str) : v.map Char.toLower = w ↔ List.Forall₂ LetterOf w v := by
  induction w generalizing v with
  | nil =>
    rw [List.map_eq_nil_iff, List.forall₂_nil_left_iff]
  | cons d w ih =>
    cases v with
    | nil => simp
    | cons c v =>
      rw [List.map_cons, List.cons.injEq, List.forall₂_cons, toLower_letter (hw d List.mem_cons_self),
        ih fun x hx => hw x (List.mem_cons_of_mem _ hx)]

theorem highlight_iff (mr : MergeRequest) : shouldHighlight mr = true ↔ AboutWeights mr := by
  have h : ∀ s, includes (str% "weight") (asciiLower s) = true ↔ Mentions (str% "weight") s := by
    intro s
    rw [includes_iff]
    unfold Mentions
    simp only [lower_forall (w := str% "weight") (by decide)]
  unfold shouldHighlight AboutWeights
  rw [Bool.or_eq_true, Bool.or_eq_true, h, h, h, or_assoc]

/-! ### Titles -/

theorem substr_short (n : Nat) (s : Str) (h : utf16Length s ≤ n) : substr n s = s := by
  unfold utf16Length at h
  induction n, s using substr.induct with
  | case1 s =>
    cases s with
    | nil => rfl
    | cons c s => simp only [List.map_cons, List.sum_cons] at h; split at h <;> omega
  | case2 => rfl
  | case3 c s hc =>
    simp only [List.map_cons, List.sum_cons, hc, if_true] at h
    cases s with
    | nil => simp [substr, hc]
    | cons d s => simp only [List.map_cons, List.sum_cons] at h; split at h <;> omega
  | case4 c s hc => simp only [List.map_cons, List.sum_cons, hc, if_false] at h; omega
  | case5 n c s hc ih =>
    simp only [List.map_cons, List.sum_cons, hc, if_true] at h
    rw [substr, if_pos hc, ih (by omega)]
  | case6 n c s hc ih =>
    simp only [List.map_cons, List.sum_cons, hc, if_false] at h
    rw [substr, if_neg hc, ih (by omega)]

theorem utf16_cons (c : Char) (s : Str) : utf16Length (c :: s) = (if c.toNat < 0x10000 then 1 else 2) + utf16Length s := rfl

theorem substr_prefix (n : Nat) (s : Str) :
    ∃ t, t <+: s ∧ (substr n s = t ∨ substr n s = t ++ [Char.ofNat 0xFFFD]) ∧ utf16Length (substr n s) ≤ n := by
  induction n, s using substr.induct with
  | case1 s => exact ⟨[], List.nil_prefix, .inl rfl, Nat.zero_le _⟩
  | case2 => exact ⟨[], List.nil_prefix, .inl rfl, Nat.zero_le _⟩
  | case3 c s hc =>
    have e : substr 1 (c :: s) = [c] := by simp [substr, hc]
    rw [e]
    exact ⟨[c], by simp, .inl rfl, by rw [utf16_cons, if_pos hc]; decide⟩
  | case4 c s hc =>
    have e : substr 1 (c :: s) = [Char.ofNat 0xFFFD] := by simp [substr, hc]
    rw [e]
    exact ⟨[], List.nil_prefix, .inr rfl, by decide⟩
  | case5 n c s hc ih =>
    obtain ⟨t, h1, h2, h3⟩ := ih
    rw [substr, if_pos hc]
    refine ⟨c :: t, by simpa using h1, ?_, by rw [utf16_cons, if_pos hc]; omega⟩
    rcases h2 with h2 | h2 <;> rw [h2] <;> simp
  | case6 n c s hc ih =>
    obtain ⟨t, h1, h2, h3⟩ := ih
    rw [substr, if_neg hc]
    refine ⟨c :: t, by simpa using h1, ?_, by rw [utf16_cons, if_neg hc]; omega⟩
    rcases h2 with h2 | h2 <;> rw [h2] <;> simp

/-! ### Rows -/

theorem shows_row {owner : Str} {mr : MergeRequest} {color : RowColor} {o : Option MergeRequest} (hg : color = .gray ↔ ¬ Own owner mr)
    (hs : color = .seagreen ↔ Own owner mr ∧ AboutWeights mr) (ho : ∀ m, o = some m ↔ Own owner mr ∧ m = mr) : ShowsRequest owner mr (mrRow mr color o) :=
  ⟨substr_short _ _, substr_prefix _ _, rfl, rfl, rfl, hg, hs, ho⟩

/-- The number of merge requests that are highlighted. -/
noncomputable def aboutCount (owner : Str) (l : List MergeRequest) : Nat := by
  classical exact l.countP fun m => Own owner m ∧ AboutWeights m

theorem mrLoop_spec (owner : Str) (l : List MergeRequest) (h : ∀ m ∈ l, m.headOwner ≠ none) :
    List.Forall₂ (ShowsRequest owner) l (mrLoop owner l).1 ∧ (mrLoop owner l).2 = some (aboutCount owner l) := by
  classical
  induction l with
  | nil => exact ⟨.nil, rfl⟩
  | cons mr l ih =>
    obtain ⟨ih1, ih2⟩ := ih fun m hm => h m (List.mem_cons_of_mem _ hm)
    cases ho : mr.headOwner with
    | none => exact absurd ho (h mr List.mem_cons_self)
    | some login =>
      have hown : Own owner mr ↔ login = owner := by unfold Own; rw [ho, Option.some.injEq]
      unfold mrLoop aboutCount
      rw [ho, List.countP_cons]
      simp only
      by_cases h1 : login = owner
      · rw [if_neg (by simpa using h1)]
        have hown := hown.2 h1
        by_cases h2 : shouldHighlight mr = true
        · have h3 := (highlight_iff mr).1 h2
          rw [if_pos h2]
          refine ⟨.cons (shows_row (by simp [hown]) (by simp [hown, h3]) (fun m => by simp [hown, eq_comm])) ih1, ?_⟩
          rw [ih2, if_pos (by simpa using ⟨hown, h3⟩)]
          rfl
        · have h3 : ¬ AboutWeights mr := fun h => h2 ((highlight_iff mr).2 h)
          rw [if_neg h2]
          refine ⟨.cons (shows_row (by simp [hown]) (by simp [h3]) (fun m => by simp [hown, eq_comm])) ih1, ?_⟩
          rw [ih2, if_neg (by simp [h3])]
          rfl
      · rw [if_pos h1]
        have hown : ¬ Own owner mr := fun h => h1 (hown.1 h)
        refine ⟨.cons (shows_row (by simp [hown]) (by simp [hown]) (fun m => by simp [hown])) ih1, ?_⟩
        rw [ih2, if_neg (by simp [hown])]
        rfl

/-- C85: if no fork has been deleted, the table shows every merge request once, newest first, and the number on the page is the number of green
rows. -/
theorem C85_rows (owner : Str) (data : List MergeRequest) (h : ∀ m ∈ data, m.headOwner ≠ none) :
    (∃ l, NewestFirst data l ∧ List.Forall₂ (ShowsRequest owner) l (mrPage owner data).rows) ∧
    (mrPage owner data).highlighted = ((mrPage owner data).rows.filter fun r => r.color = .seagreen).length ∧ (mrPage owner data).overlay = false := by
  classical
  have hn := newestFirst_spec data
  obtain ⟨h1, h2⟩ := mrLoop_spec owner (newestFirst data) fun m hm => h m (hn.perm.mem_iff.1 hm)
  have hp : mrPage owner data = ⟨(mrLoop owner (newestFirst data)).1, aboutCount owner (newestFirst data), false⟩ := by
    unfold mrPage
    rw [show mrLoop owner (newestFirst data) = ((mrLoop owner (newestFirst data)).1, (mrLoop owner (newestFirst data)).2) from rfl, h2]
  rw [hp]
  refine ⟨⟨_, hn, h1⟩, ?_, rfl⟩
  generalize (mrLoop owner (newestFirst data)).1 = rows at h1
  generalize newestFirst data = l at h1
  show aboutCount owner l = _
  clear hp h2 hn
  induction h1 with
  | nil => rfl
  | @cons mr r l rows h1 _ ih =>
    unfold aboutCount at ih ⊢
    rw [List.countP_cons, ih, List.filter_cons]
    by_cases hc : r.color = .seagreen
    · rw [if_pos (by simpa using h1.green.1 hc), if_pos (by simpa using hc)]
      rfl
    · rw [if_neg (by simpa using fun h2 h3 => hc (h1.green.2 ⟨h2, h3⟩)), if_neg (by simpa using hc)]
      rfl

theorem mrLoop_deleted (owner : Str) {pre post : List MergeRequest} {mr : MergeRequest} (h : ∀ m ∈ pre, m.headOwner ≠ none) (hm : mr.headOwner = none) :
    (mrLoop owner (pre ++ mr :: post)).1.map (fun r => (r.head, r.base)) = (pre ++ [mr]).map (fun m => (m.head, m.base)) ∧
      (mrLoop owner (pre ++ mr :: post)).2 = none := by
  induction pre with
  | nil =>
    rw [List.nil_append, mrLoop, hm]
    exact ⟨rfl, rfl⟩
  | cons m l ih =>
    obtain ⟨ih1, ih2⟩ := ih fun x hx => h x (List.mem_cons_of_mem _ hx)
    rw [List.cons_append, mrLoop]
    cases ho : m.headOwner with
    | none => exact absurd ho (h m List.mem_cons_self)
    | some login =>
      simp only
      rw [List.cons_append, List.map_cons, ← ih1]
      split
      · exact ⟨rfl, ih2⟩
      · split
        · exact ⟨rfl, by rw [ih2]; rfl⟩
        · exact ⟨rfl, ih2⟩

/-- C85 (finding): as soon as the fork of one merge request has been deleted, the list ends with it: all older ones are missing, the page counts no
highlighted ones whatever is in the list, and keeps waiting. -/
theorem C85_deleted (owner : Str) (data : List MergeRequest) (h : ∃ m ∈ data, m.headOwner = none) :
    ∃ l pre mr post, NewestFirst data l ∧ l = pre ++ mr :: post ∧ mr.headOwner = none ∧
      (mrPage owner data).rows.map (fun r => (r.head, r.base)) = (pre ++ [mr]).map (fun m => (m.head, m.base)) ∧
      (mrPage owner data).highlighted = 0 ∧ (mrPage owner data).overlay = true := by
  have hn := newestFirst_spec data
  have hsplit : ∀ l : List MergeRequest, (∃ m ∈ l, m.headOwner = none) →
      ∃ pre mr post, l = pre ++ mr :: post ∧ mr.headOwner = none ∧ ∀ m ∈ pre, m.headOwner ≠ none := by
    intro l
    induction l with
    | nil => rintro ⟨m, hm, _⟩; cases hm
    | cons x l ih =>
      rintro ⟨m, hm, hd⟩
      by_cases hx : x.headOwner = none
      · exact ⟨[], x, l, rfl, hx, by simp⟩
      · rcases List.mem_cons.1 hm with rfl | hm
        · exact absurd hd hx
        · obtain ⟨pre, mr, post, rfl, h1, h2⟩ := ih ⟨m, hm, hd⟩
          refine ⟨x :: pre, mr, post, rfl, h1, ?_⟩
          intro y hy
          rcases List.mem_cons.1 hy with rfl | hy
          · exact hx
          · exact h2 y hy
  obtain ⟨m, hm, hd⟩ := h
  obtain ⟨pre, mr, post, he, h1, h2⟩ := hsplit (newestFirst data) ⟨m, hn.perm.mem_iff.2 hm, hd⟩
  obtain ⟨h3, h4⟩ := mrLoop_deleted owner (post := post) h2 h1
  refine ⟨newestFirst data, pre, mr, post, hn, he, h1, ?_⟩
  unfold mrPage
  rw [he, show mrLoop owner (pre ++ mr :: post) = ((mrLoop owner (pre ++ mr :: post)).1, (mrLoop owner (pre ++ mr :: post)).2) from rfl, h4]
  exact ⟨h3, rfl, rfl⟩

/-- C85: a double click on a merge request of the repository itself fetches the branches of the repository and, once the server has answered, opens
the comparison of its two branches; on one from a fork it does nothing. -/
theorem C85_click (u : Utf8Lossy) (ent : Entities) {owner repo pattern : Str} {mr : MergeRequest} {r : MrRow} (hr : ShowsRequest owner mr r)
    (h : pathPresets.lookup repo = some pattern) (h1 : UrlSafe mr.base) (h2 : UrlSafe mr.head) (p1 : '+' ∉ mr.base) (p2 : '+' ∉ mr.head)
    (h3 : ∀ c, mr.head.getLast? = some c → 0x20 < c.toNat) :
    (Own owner mr → ∃ b q, r.doubleClick repo = .asks b q ∧ parseBranchQuery u b = some (repo, true) ∧ requestArgs u ent q = some
      { old := mr.base, new := mr.head, repo := repo, pathPattern := pattern, extrinsic := none, pallet := none, ignoreErrors := true, threshold := 10,
        unit := .time, gitPull := none, method := .asymptotic }) ∧
    (¬ Own owner mr → r.doubleClick repo = .nothing) := by
  have hm := preset_eq h
  simp only [pathPresets, List.mem_singleton, Prod.mk.injEq] at hm
  refine ⟨fun ho => ?_, fun ho => ?_⟩
  · have e := (hr.opens mr).2 ⟨ho, rfl⟩
    obtain ⟨q, hq, ha⟩ := C71_merge_request u h h1 h2 h3
    refine ⟨branchQuery repo true, q, ?_, ?_, ?_⟩
    · unfold MrRow.doubleClick
      rw [e]
      simp only [hq]
    · rw [hm.1]
      exact C84_asked u (urlSafe_of (by decide)) (by decide) true
    · rw [unplus_plain p1, unplus_plain p2] at ha
      rw [requestArgs, ha]
      simp only [Option.map_some]
      rw [ent.decode_plain mr.base fun hc => (h1 _ hc).1 rfl, ent.decode_plain mr.head fun hc => (h2 _ hc).1 rfl,
        ent.decode_plain pattern (by rw [hm.2]; decide)]
  · have e : r.opens = none := by
      cases hx : r.opens with
      | none => rfl
      | some m => exact absurd ((hr.opens m).1 hx).1 ho
    unfold MrRow.doubleClick
    rw [e]

/-- C85 (finding): without a preset for the repository, a double click on any merge request that can be opened ends with an exception. -/
theorem C85_throws {owner repo : Str} {mr : MergeRequest} {r : MrRow} (hr : ShowsRequest owner mr r) (ho : Own owner mr)
    (h : pathPresets.lookup repo = none) : r.doubleClick repo = .throws := by
  have e := (hr.opens mr).2 ⟨ho, rfl⟩
  have hq : mergeRequestQuery repo mr.base mr.head = none := by
    unfold mergeRequestQuery defaultParams
    rw [h]
    rfl
  unfold MrRow.doubleClick
  rw [e]
  simp only [hq]

/-! ### Selecting a repository -/

/-- A query as text. -/
def asText (q : Bytes) : Str := q.map fun b => Char.ofNat b.toNat

theorem toNat_ofNat_lt {n : Nat} (h : n < 0xd800) : (Char.ofNat n).toNat = n := by
  unfold Char.ofNat
  rw [dif_pos (.inl h)]
  show (UInt32.ofNatLT n _).toNat = n
  exact UInt32.toNat_ofNatLT

theorem ofNat_byte (b : UInt8) : (Char.ofNat b.toNat).toNat = b.toNat := by
  exact toNat_ofNat_lt (by have := b.toNat_lt; omega)

theorem asText_inj {a b : Bytes} (h : asText a = asText b) : a = b := by
  refine List.map_injective_iff.2 ?_ h
  intro x y hxy
  have := congrArg Char.toNat hxy
  simp only [ofNat_byte] at this
  exact UInt8.toNat_inj.1 this

/-- Characters that have no meaning in the query. -/
def Mute (s : Str) : Prop := ∀ c ∈ s, c ≠ '?' ∧ c ≠ '&' ∧ c ≠ '=' ∧ c ≠ '#'

theorem quiet_of_toNat {c : Char} (h : c.toNat ≠ 0x3F ∧ c.toNat ≠ 0x26 ∧ c.toNat ≠ 0x3D ∧ c.toNat ≠ 0x23) : c ≠ '?' ∧ c ≠ '&' ∧ c ≠ '=' ∧ c ≠ '#' := by
  refine ⟨?_, ?_, ?_, ?_⟩ <;> rintro rfl <;> revert h <;> decide

theorem formByte_quiet (b : UInt8) : ∀ x ∈ formByte b, x.toNat ≠ 0x3F ∧ x.toNat ≠ 0x26 ∧ x.toNat ≠ 0x3D ∧ x.toNat ≠ 0x23 := by
  intro x hx
  unfold formByte at hx
  simp only at hx
  split at hx
  · rw [List.mem_singleton.1 hx]; decide
  · split at hx
    · rename_i h; rw [List.mem_singleton.1 hx]; omega
    · unfold pct upperHex at hx
      simp only [List.mem_cons, List.not_mem_nil, or_false] at hx
      have := b.toNat_lt
      rcases hx with rfl | rfl | rfl
      · decide
      · rw [UInt8.toNat_ofNat']; split <;> omega
      · rw [UInt8.toNat_ofNat']; split <;> omega

theorem formEncode_quiet (s : Str) : Mute (asText (formEncode s)) := by
  intro c hc
  obtain ⟨b, hb, rfl⟩ := List.mem_map.1 hc
  obtain ⟨x, _, hx⟩ := List.mem_flatMap.1 hb
  apply quiet_of_toNat
  rw [ofNat_byte]
  exact formByte_quiet x b hx

theorem formEncode_inj {s t : Str} (u : Utf8Lossy) (h : formEncode s = formEncode t) : s = t := by
  have h1 := formDecode_spells u (s := s) (spells_flatMap true (formByte_spells true) _)
  have h2 := formDecode_spells u (s := t) (spells_flatMap true (formByte_spells true) _)
  have h : (utf8 s).flatMap formByte = (utf8 t).flatMap formByte := h
  rw [h] at h1
  exact h1.symm.trans h2

theorem github_char {c : Char} (h : (0x30 ≤ c.toNat ∧ c.toNat ≤ 0x39) ∨ (0x41 ≤ c.toNat ∧ c.toNat ≤ 0x5A) ∨ (0x61 ≤ c.toNat ∧ c.toNat ≤ 0x7A) ∨ c = '-' ∨ c = '.' ∨ c = '_') :
    asText ((utf8 [c]).flatMap formByte) = [c] := by
  have hn : (0x30 ≤ c.toNat ∧ c.toNat ≤ 0x39) ∨ (0x41 ≤ c.toNat ∧ c.toNat ≤ 0x5A) ∨ (0x61 ≤ c.toNat ∧ c.toNat ≤ 0x7A) ∨ c.toNat = 0x2A ∨ c.toNat = 0x2D ∨
      c.toNat = 0x2E ∨ c.toNat = 0x5F := by
    rcases h with h | h | h | rfl | rfl | rfl
    · exact .inl h
    · exact .inr (.inl h)
    · exact .inr (.inr (.inl h))
    · decide
    · decide
    · decide
  rw [utf8_ascii (by omega), List.flatMap_cons, List.flatMap_nil, List.append_nil]
  have e : (UInt8.ofNat c.toNat).toNat = c.toNat := by rw [UInt8.toNat_ofNat']; omega
  unfold formByte
  simp only [e]
  rw [if_neg (by omega), if_pos hn, asText, List.map_cons, List.map_nil, e, Char.ofNat_toNat]

/-- Names are not changed in a query. -/
theorem formEncode_name {s : Str} (h : GithubName s) : asText (formEncode s) = s := by
  replace h := h.2
  induction s with
  | nil => rfl
  | cons c s ih =>
    have e : formEncode (c :: s) = (utf8 [c]).flatMap formByte ++ formEncode s := by
      show (utf8 ([c] ++ s)).flatMap formByte = _
      rw [utf8_append, List.flatMap_append]
      rfl
    rw [e]
    unfold asText at ih ⊢
    rw [List.map_append, ih fun x hx => h x (List.mem_cons_of_mem _ hx)]
    show asText _ ++ s = _
    rw [github_char (h c List.mem_cons_self)]
    rfl

theorem findParam_skip {t : Str} (h : ∀ c ∈ t, c ≠ '?' ∧ c ≠ '&') (name r : Str) : findParam name (t ++ r) = findParam name r := by
  induction t with
  | nil => rfl
  | cons c t ih =>
    have hc := h c List.mem_cons_self
    rw [List.cons_append, findParam, if_neg (by simp [hc.1, hc.2])]
    exact ih fun x hx => h x (List.mem_cons_of_mem _ hx)

theorem afterPrefix_same (p r : Str) : afterPrefix p (p ++ r) = some r := by
  induction p with
  | nil => rfl
  | cons c p ih => rw [List.cons_append, afterPrefix, if_pos rfl, ih]

theorem afterPrefix_other {n x : Str} (hn : '=' ∉ n) (hx : '=' ∉ x) (h : n ≠ x) (r : Str) : afterPrefix (n ++ ['=']) (x ++ '=' :: r) = none := by
  induction n generalizing x with
  | nil =>
    cases x with
    | nil => exact absurd rfl h
    | cons c x => rw [List.nil_append, List.cons_append, afterPrefix, if_neg]; rintro rfl; simp at hx
  | cons a n ih =>
    cases x with
    | nil => rw [List.cons_append, List.nil_append, afterPrefix, if_neg]; rintro rfl; simp at hn
    | cons c x =>
      rw [List.cons_append, List.cons_append, afterPrefix]
      split
      · rename_i hac
        subst hac
        exact ih (fun h => hn (List.mem_cons_of_mem _ h)) (fun h => hx (List.mem_cons_of_mem _ h)) (fun e => h (by rw [e]))
      · rfl

/-- What follows the query. -/
def EndsQuery (f : Str) : Prop := f = [] ∨ ∃ t, f = '#' :: t

theorem takeWhile_value {v : Str} (h : Mute v) {r : Str} (hr : r = [] ∨ ∃ t, r = '#' :: t ∨ r = '&' :: t) :
    (v ++ r).takeWhile (fun c => c ≠ '&' ∧ c ≠ '#') = v := by
  rw [List.takeWhile_append_of_pos (by intro c hc; have := h c hc; simp [this.2.1, this.2.2.2])]
  rcases hr with rfl | ⟨t, rfl | rfl⟩ <;> simp

theorem findParam_pairs (u : Utf8Lossy) {name v : Str} (hn : GithubName name) {ps : List (Str × Str)} (h : Once ps name v) {sep : Char}
    (hs : sep = '?' ∨ sep = '&') {f : Str} (hf : EndsQuery f) :
    findParam name (sep :: (asText (formSerialize ps) ++ f)) = some (asText (formEncode v)) := by
  obtain ⟨l, r, rfl, hl, _⟩ := h
  have hq : '=' ∉ name := by
    intro hm
    have := hn.2 _ hm
    revert this
    decide
  induction l generalizing sep with
  | nil =>
    have e : ∃ t, asText (formSerialize ([] ++ (name, v) :: r)) ++ f = name ++ '=' :: (asText (formEncode v) ++ t) ∧ (t = [] ∨ ∃ x, t = '#' :: x ∨ t = '&' :: x) := by
      rw [List.nil_append]
      cases r with
      | nil =>
        refine ⟨f, ?_, ?_⟩
        · rw [formSerialize, asText, List.map_append, List.map_cons]
          show asText _ ++ '=' :: asText _ ++ f = _
          rw [formEncode_name hn]
          simp
        · rcases hf with rfl | ⟨t, rfl⟩
          · exact .inl rfl
          · exact .inr ⟨t, .inl rfl⟩
      | cons p r =>
        refine ⟨'&' :: (asText (formSerialize (p :: r)) ++ f), ?_, .inr ⟨_, .inr rfl⟩⟩
        rw [formSerialize, asText, List.map_append, List.map_append, List.map_cons, List.map_cons]
        show asText _ ++ '=' :: asText _ ++ '&' :: asText _ ++ f = _
        rw [formEncode_name hn]
        simp
    obtain ⟨t, e, ht⟩ := e
    rw [e, findParam, if_pos hs, show name ++ '=' :: (asText (formEncode v) ++ t) = (name ++ ['=']) ++ (asText (formEncode v) ++ t) by simp,
      afterPrefix_same]
    simp only
    rw [takeWhile_value (formEncode_quiet v) ht]
  | cons p l ih =>
    have hp := hl p List.mem_cons_self
    have e : asText (formSerialize (p :: l ++ (name, v) :: r)) ++ f =
        asText (formEncode p.1) ++ '=' :: (asText (formEncode p.2) ++ '&' :: (asText (formSerialize (l ++ (name, v) :: r)) ++ f)) := by
      obtain ⟨x, y, hxy⟩ : ∃ x y, l ++ (name, v) :: r = x :: y := by cases l <;> exact ⟨_, _, rfl⟩
      rw [List.cons_append, hxy, formSerialize, asText, List.map_append, List.map_append, List.map_cons, List.map_cons]
      show asText _ ++ '=' :: asText _ ++ '&' :: asText _ ++ f = _
      simp
    have hne : name ≠ asText (formEncode p.1) := by
      intro h
      rw [← formEncode_name hn] at h
      exact hp (formEncode_inj u (asText_inj h)).symm
    have q1 := formEncode_quiet p.1
    have q2 := formEncode_quiet p.2
    rw [e, findParam, if_pos hs, afterPrefix_other hq (fun h => (q1 _ h).2.2.1 rfl) hne]
    simp only
    rw [findParam_skip (fun c hc => ⟨(q1 c hc).1, (q1 c hc).2.1⟩),
      show ∀ t, '=' :: (asText (formEncode p.2) ++ t) = ('=' :: asText (formEncode p.2)) ++ t from fun _ => rfl,
      findParam_skip (by
        intro c hc
        rcases List.mem_cons.1 hc with rfl | hc
        · decide
        · exact ⟨(q2 c hc).1, (q2 c hc).2.1⟩)]
    exact ih (.inr rfl) (fun x hx => hl x (List.mem_cons_of_mem _ hx))

theorem urlParam_name (u : Utf8Lossy) (d : DecodeUri) {h : Href} (hb : ∀ c ∈ h.base, c ≠ '?' ∧ c ≠ '&') (hf : EndsQuery h.fragment)
    {ps : List (Str × Str)} (hps : h.query = formSerialize ps) {name v dflt : Str} (hn : GithubName name) (hv : GithubName v) (ho : Once ps name v) :
    urlParam d name dflt h.text = some v := by
  unfold urlParam Href.text
  rw [findParam_skip hb, hps]
  have := findParam_pairs u hn ho (.inl rfl) hf
  unfold asText at this
  rw [this]
  show (d.decode (asText (formEncode v))).map _ = _
  rw [formEncode_name hv, d.plain v (by intro hm; have := hv.2 _ hm; revert this; decide)]
  simp [hv.1]

theorem splitAtChar_eq (sep : Char) (acc s : Str) : splitAtChar sep acc s = match splitChar sep s with
    | h :: t => (acc ++ h) :: t
    | [] => [acc] := by
  induction s generalizing acc with
  | nil => simp [splitAtChar, splitChar]
  | cons c s ih =>
    unfold splitAtChar splitChar
    split
    · simp only [List.append_nil, List.cons.injEq, true_and]
      rw [ih]
      cases hs : splitChar sep s with
      | nil =>
        exfalso
        cases s with
        | nil => cases hs
        | cons x s =>
          unfold splitChar at hs
          split at hs
          · cases hs
          · split at hs <;> cases hs
      | cons h t => rfl
    · rw [ih]
      cases splitChar sep s with
      | nil => simp
      | cons h t => simp

theorem splitAtChar_nil (sep : Char) (s : Str) : splitAtChar sep [] s = splitChar sep s := by
  rw [splitAtChar_eq]
  cases hs : splitChar sep s with
  | nil =>
    exfalso
    cases s with
    | nil => cases hs
    | cons x s =>
      unfold splitChar at hs
      split at hs
      · cases hs
      · split at hs <;> cases hs
  | cons h t => rfl

theorem select_parts (u : Utf8Lossy) (d : DecodeUri) {h : Href} (hb : ∀ c ∈ h.base, c ≠ '?' ∧ c ≠ '&') (hf : EndsQuery h.fragment) {value org name : Str}
    (hs : splitChar ':' value = [org, name]) (h1 : GithubName org) (h2 : GithubName name) :
    mrRepository d (selectRepo u h value).text = some (org, name) := by
  have e : (selectRepo u h value).query = formSerialize (setParam (str% "repo") name (setParam (str% "owner") org (formPairs u h.query))) := by
    unfold selectRepo
    rw [hs]
    rfl
  have n1 : GithubName (str% "owner") := by unfold GithubName; decide
  have n2 : GithubName (str% "repo") := by unfold GithubName; decide
  unfold mrRepository
  rw [urlParam_name u d (h := selectRepo u h value) hb hf e n1 h1 (setParam_other (by decide) (setParam_once _ _ _)),
    urlParam_name u d (h := selectRepo u h value) hb hf e n2 h2 (setParam_once _ _ _)]
  rfl

/-- C85: selecting one of the repositories that the page offers opens the list of its merge requests, whatever else is in the address of the page. -/
theorem C85_select (u : Utf8Lossy) (d : DecodeUri) {h : Href} (hb : ∀ c ∈ h.base, c ≠ '?' ∧ c ≠ '&') (hf : EndsQuery h.fragment) {repos : List Repo}
    (hr : ∀ r ∈ repos, GithubName r.organization ∧ GithubName r.name) :
    (offers (tokens (mergeRequestPage repos)) (str% "select_repo")).map (fun o => mrRepository d (selectRepo u h o.1).text) =
      repos.map fun r => some (r.organization, r.name) := by
  have hc : ∀ r ∈ repos, ∀ c ∈ r.organization ++ r.name, isBlank c = false ∧ c ≠ ':' := by
    intro r hm c hc
    have : (0x30 ≤ c.toNat ∧ c.toNat ≤ 0x39) ∨ (0x41 ≤ c.toNat ∧ c.toNat ≤ 0x5A) ∨ (0x61 ≤ c.toNat ∧ c.toNat ≤ 0x7A) ∨ c = '-' ∨ c = '.' ∨ c = '_' := by
      rcases List.mem_append.1 hc with hc | hc
      · exact (hr r hm).1.2 c hc
      · exact (hr r hm).2.2 c hc
    refine ⟨?_, ?_⟩
    · rw [Bool.eq_false_iff]
      intro hb
      simp only [isBlank, Bool.or_eq_true, decide_eq_true_eq, or_assoc] at hb
      rcases hb with rfl | rfl | rfl | rfl | rfl <;> revert this <;> decide
    · rintro rfl; revert this; decide
  have h2 := (C75_merge_request_list (repos := repos) fun r hm c hx => (hc r hm c hx).1).2 fun r hm hx => (hc r hm _ hx).2 rfl
  generalize offers (tokens (mergeRequestPage repos)) (str% "select_repo") = os at h2 ⊢
  clear hc
  induction repos generalizing os with
  | nil =>
    rw [List.map_nil, List.map_eq_nil_iff] at h2
    rw [h2]
    rfl
  | cons r l ih =>
    cases os with
    | nil => cases h2
    | cons o os =>
      rw [List.map_cons, List.map_cons, List.cons.injEq, splitAtChar_nil] at h2
      rw [List.map_cons, List.map_cons, ih (fun x hx => hr x (List.mem_cons_of_mem _ hx)) os h2.2,
        select_parts u d hb hf h2.1 (hr r List.mem_cons_self).1 (hr r List.mem_cons_self).2]

/-! ### A concrete list -/

/-- Two merge requests of the repository and one from a fork. -/
def exMrs : List MergeRequest :=
  [⟨str% "Old", str% "a", str% "a-fix", str% "master", some (str% "paritytech"), 5⟩,
   ⟨str% "Update WEIGHTs", str% "b", str% "b-fix", str% "master", some (str% "paritytech"), 7⟩,
   ⟨str% "Fork", str% "c", str% "patch", str% "master", some (str% "c"), 6⟩]

example : ∀ m ∈ exMrs, m.headOwner ≠ none := by decide
example : mrPage (str% "paritytech") exMrs = ⟨[
    ⟨str% "Update WEIGHTs", str% "b", str% "b-fix", str% "master", .seagreen, exMrs[1]?⟩,
    ⟨str% "Fork", str% "c", str% "patch", str% "master", .gray, none⟩,
    ⟨str% "Old", str% "a", str% "a-fix", str% "master", .plain, exMrs[0]?⟩], 1, false⟩ := by decide +kernel

/-- The same once the fork has been deleted. -/
example : mrPage (str% "paritytech") (exMrs.map fun m => if m.updated = 6 then { m with headOwner := none } else m) = ⟨[
    ⟨str% "Update WEIGHTs", str% "b", str% "b-fix", str% "master", .seagreen, exMrs[1]?⟩,
    ⟨str% "Fork", str% "c", str% "patch", str% "master", .plain, none⟩], 0, true⟩ := by decide +kernel

/-- The hypotheses of `C85_click` and `C85_rows` are met by these merge requests. -/
example : ShowsRequest (str% "paritytech") (exMrs[1]'(by decide)) ⟨str% "Update WEIGHTs", str% "b", str% "b-fix", str% "master", .seagreen, exMrs[1]?⟩ ∧
    UrlSafe (str% "b-fix") ∧ pathPresets.lookup (str% "polkadot-sdk") ≠ none := by
  refine ⟨?_, urlSafe_of (by decide), by decide⟩
  have ha : AboutWeights (exMrs[1]'(by decide)) := (highlight_iff _).1 (by decide +kernel)
  have ho : Own (str% "paritytech") (exMrs[1]'(by decide)) := rfl
  exact shows_row (color := .seagreen) (by simp [ho]) (by simp [ho, ha]) (fun m => ⟨fun h => ⟨ho, (Option.some.inj h).symm⟩, fun h => by rw [h.2]; rfl⟩)

/-- The hypotheses of `C85_select` are met. -/
example : GithubName (str% "polkadot-sdk") ∧ GithubName (str% "paritytech") := by unfold GithubName; decide
example (u : Utf8Lossy) (d : DecodeUri) : mrRepository d (selectRepo u ⟨str% "http://localhost:8080/compare-mr", (str% "x=1&owner=me").map fun c => UInt8.ofNat c.toNat, str% "#top"⟩
    (str% "paritytech:polkadot-sdk")).text = some (str% "paritytech", str% "polkadot-sdk") :=
  select_parts u d (by decide) (.inr ⟨_, rfl⟩) (by decide) (by unfold GithubName; decide) (by unfold GithubName; decide)

/-- C85: unless the address of the page gives an owner or a repository that is not empty, the list is that of `paritytech/polkadot-sdk`. -/
theorem C85_default (d : DecodeUri) {href : Str} (h : ∀ n ∈ [str% "owner", str% "repo"], ∀ a c b, c = '?' ∨ c = '&' → href = a ++ c :: (n ++ '=' :: b) →
    b = [] ∨ ∃ e r, b = e :: r ∧ (e = '&' ∨ e = '#')) : mrRepository d href = some (str% "paritytech", str% "polkadot-sdk") := by
  have hp : ∀ p s r, afterPrefix p s = some r → s = p ++ r := by
    intro p
    induction p with
    | nil => intro s r h; cases h; rfl
    | cons x p ih =>
      intro s r h
      cases s with
      | nil => cases h
      | cons c s =>
        rw [afterPrefix] at h
        split at h
        · rename_i e
          rw [e, ih s r h]
          rfl
        · cases h
  have hf : ∀ name s v, findParam name s = some v → ∃ a c b, s = a ++ c :: (name ++ '=' :: b) ∧ (c = '?' ∨ c = '&') ∧
      v = b.takeWhile fun c => c ≠ '&' ∧ c ≠ '#' := by
    intro name s
    induction s with
    | nil => intro v h; cases h
    | cons c s ih =>
      intro v h
      rw [findParam] at h
      split at h
      · rename_i r e
        cases h
        split at e
        · rename_i hc
          refine ⟨[], c, r, ?_, hc, rfl⟩
          rw [hp _ _ _ e]
          simp
        · cases e
      · obtain ⟨a, c', b, rfl, h2, h3⟩ := ih v h
        exact ⟨c :: a, c', b, rfl, h2, h3⟩
  have hu : ∀ n ∈ [str% "owner", str% "repo"], ∀ dflt, urlParam d n dflt href = some dflt := by
    intro n hn dflt
    unfold urlParam
    cases e : findParam n href with
    | none => rfl
    | some v =>
      obtain ⟨a, c, b, h1, h2, h3⟩ := hf _ _ _ e
      have hv : v = [] := by
        rw [h3]
        rcases h n hn a c b h2 h1 with rfl | ⟨x, r, rfl, rfl | rfl⟩ <;> simp
      subst hv
      dsimp only
      rw [d.plain _ (by simp)]
      rfl
  unfold mrRepository
  rw [hu _ (by simp), hu _ (by simp)]
  rfl

-- With an empty owner and no repository.
example (d : DecodeUri) : mrRepository d (str% "http://x/merge-requests?owner=&q=1") = some (str% "paritytech", str% "polkadot-sdk") := by
  unfold mrRepository urlParam
  rw [show findParam (str% "owner") (str% "http://x/merge-requests?owner=&q=1") = some [] by decide +kernel,
    show findParam (str% "repo") (str% "http://x/merge-requests?owner=&q=1") = none by decide +kernel]
  simp only [d.plain [] (by simp)]
  rfl

/-- C85 (finding): the parameters are not read as they are written.  A space is written as a plus sign and read as such. -/
theorem C85_false_space (u : Utf8Lossy) (d : DecodeUri) : mrRepository d (selectRepo u ⟨[], [], []⟩ (str% "me:my repo")).text = some (str% "me", str% "my+repo") := by
  have e : (selectRepo u ⟨[], [], []⟩ (str% "me:my repo")).text = str% "?owner=me&repo=my+repo" := by
    have : formPairs u [] = [] := C69_spelled u .nil
    unfold selectRepo Href.text
    simp only [this]
    decide +kernel
  rw [e]
  unfold mrRepository urlParam
  rw [show findParam (str% "owner") (str% "?owner=me&repo=my+repo") = some (str% "me") by decide +kernel,
    show findParam (str% "repo") (str% "?owner=me&repo=my+repo") = some (str% "my+repo") by decide +kernel]
  simp only
  rw [d.plain _ (by decide), d.plain _ (by decide)]
  rfl

theorem whole_unmarked (s : Str) (h : Unmarked s) : Whole s (s.map .char) := by
  induction s with
  | nil => rfl
  | cons c s ih =>
    obtain ⟨h1, h2⟩ := h
    have e1 : c ≠ '<' := fun e => h1 (e ▸ List.mem_cons_self)
    have e2 : c ≠ '&' := fun e => h2 (e ▸ List.mem_cons_self)
    have := ih ⟨fun hm => h1 (List.mem_cons_of_mem _ hm), fun hm => h2 (List.mem_cons_of_mem _ hm)⟩
    rw [Whole] at this ⊢
    simp [feed, stepHtml, stepText, stepPlain, e1, e2, this]

/-- C85: in the browser a row shows title, author and branches as they are, and brings no elements of its own into the page, if none of them contains `<`
or `&` and the title is not too long. -/
theorem C85_cells {owner : Str} {mr : MergeRequest} {r : MrRow} (hr : ShowsRequest owner mr r) (hl : utf16Length mr.title ≤ 100)
    (h1 : Unmarked mr.title) (h2 : Unmarked mr.login) (h3 : Unmarked mr.head) (h4 : Unmarked mr.base) :
    r.cells.map seen = [mr.title, mr.login, mr.head, mr.base] ∧ ∀ c ∈ r.cells, elementsOf c = [] := by
  have key : ∀ s, Unmarked s → seen s = s ∧ elementsOf s = [] := by
    intro s h
    have := whole_tokens (whole_unmarked s h)
    rw [seen, elementsOf, this]
    clear this h
    induction s with
    | nil => exact ⟨rfl, rfl⟩
    | cons c s ih =>
      refine ⟨?_, ?_⟩
      · rw [List.map_cons, List.filterMap_cons, ih.1]
      · rw [List.map_cons, List.filterMap_cons, ih.2]
  unfold MrRow.cells
  rw [hr.title hl, hr.author, hr.head, hr.base]
  refine ⟨by simp [key _ h1, key _ h2, key _ h3, key _ h4], ?_⟩
  intro c hc
  simp only [List.mem_cons, List.not_mem_nil, or_false] at hc
  rcases hc with rfl | rfl | rfl | rfl
  · exact (key _ h1).2
  · exact (key _ h2).2
  · exact (key _ h3).2
  · exact (key _ h4).2

-- A merge request of the repository itself.
example : (mrPage (str% "me") [⟨str% "Update weights (50%)", str% "alice", str% "alice/weights", str% "main", some (str% "me"), 0⟩]).rows.map
    (fun r => r.cells.map seen) = [[str% "Update weights (50%)", str% "alice", str% "alice/weights", str% "main"]] := by decide +kernel

/-- C85 (finding): titles are taken for HTML; types in titles are not shown. -/
theorem C85_false_title : (mrPage (str% "me") [⟨str% "Use Vec<T> for weights", str% "alice", str% "alice/weights", str% "main", some (str% "me"), 0⟩]).rows.map
    (fun r => r.cells.map seen) = [[str% "Use Vec for weights", str% "alice", str% "alice/weights", str% "main"]] := by decide +kernel

/-- C85 (finding): whoever opens a merge request, from a fork or not, brings elements of their choice into the page of everyone who looks at the list,
and with them scripts. -/
theorem C85_false_markup (owner login head base : Str) (fork : Str) (t : Int) :
    ∃ title, ∃ r ∈ (mrPage owner [⟨title, login, head, base, some fork, t⟩]).rows, ∃ c ∈ r.cells,
      (str% "img", [(str% "src", str% "x"), (str% "onerror", str% "alert(1)")]) ∈ elementsOf c := by
  refine ⟨str% "<img src=x onerror=alert(1)>", ?_⟩
  obtain ⟨⟨l, hn, hf⟩, -⟩ := C85_rows owner [⟨str% "<img src=x onerror=alert(1)>", login, head, base, some fork, t⟩] (by simp)
  have hl := List.perm_singleton.1 hn.perm
  subst hl
  generalize (mrPage owner _).rows = rows at hf ⊢
  cases hf with
  | cons h1 h2 =>
    rename_i r _
    refine ⟨r, List.mem_cons_self, r.title, by simp [MrRow.cells], ?_⟩
    have ht := h1.title
    dsimp only at ht
    rw [ht (by decide)]
    decide +kernel

end Swc
