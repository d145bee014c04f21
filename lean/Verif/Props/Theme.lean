/-
C95: light and dark pages.
-/
import Verif.Spec.Theme
import Verif.Props.PageOther

namespace Swc

open Spec

/-! ### Class attributes -/

theorem tokensFrom_append {a : Str} (ha : ∀ c ∈ a, isBlank c = false) (acc s : Str) : tokensFrom acc (a ++ s) = tokensFrom (acc ++ a) s := by
  induction a generalizing acc with
  | nil => simp
  | cons c a ih =>
    show (if isBlank c then _ else tokensFrom (acc ++ [c]) (a ++ s)) = _
    rw [ha c List.mem_cons_self, if_neg Bool.false_ne_true, ih (fun d hd => ha d (List.mem_cons_of_mem _ hd)), List.append_assoc]
    rfl

theorem classTokens_word {a : Str} (ha : ∀ c ∈ a, isBlank c = false) (h0 : a ≠ []) : classTokens a = [a] := by
  have := tokensFrom_append ha [] []
  rw [List.append_nil] at this
  unfold classTokens
  rw [this]
  exact if_neg h0

theorem tokensFrom_blank {b : Char} (hb : isBlank b = true) (acc u v : Str) : tokensFrom acc (u ++ b :: v) = tokensFrom acc u ++ classTokens v := by
  induction u generalizing acc with
  | nil =>
    show (if isBlank b then _ else _) = (if acc = [] then [] else [acc]) ++ classTokens v
    rw [if_pos hb]
    split <;> rfl
  | cons c u ih =>
    show (if isBlank c then _ else tokensFrom (acc ++ [c]) (u ++ b :: v)) = (if isBlank c then _ else _) ++ classTokens v
    cases hc : isBlank c with
    | false => exact ih _
    | true =>
      rw [if_pos rfl, if_pos rfl, show u.append (b :: v) = u ++ b :: v from rfl, ih]
      split <;> rfl

theorem classTokens_blank {b : Char} (hb : isBlank b = true) (u v : Str) : classTokens (u ++ b :: v) = classTokens u ++ classTokens v := tokensFrom_blank hb _ _ _

theorem tokensFrom_mem {acc s t : Str} (ha : ∀ c ∈ acc, isBlank c = false) (h : t ∈ tokensFrom acc s) : t ≠ [] ∧ (∀ c ∈ t, isBlank c = false) ∧
    ∃ u v, acc ++ s = u ++ t ++ v ∧ (∀ c, u.getLast? = some c → isBlank c = true) ∧ (∀ c, v.head? = some c → isBlank c = true) := by
  induction s generalizing acc with
  | nil =>
    unfold tokensFrom at h
    split at h
    · cases h
    · next h0 =>
      rw [List.mem_singleton] at h
      subst h
      exact ⟨h0, ha, [], [], by simp, by simp, by simp⟩
  | cons c s ih =>
    unfold tokensFrom at h
    cases hc : isBlank c with
    | true =>
      rw [hc, if_pos rfl] at h
      have key : t ∈ tokensFrom [] s → _ := fun h => ih (acc := []) (by simp) h
      have lift : t ∈ tokensFrom [] s → t ≠ [] ∧ (∀ c ∈ t, isBlank c = false) ∧
          ∃ u v, acc ++ c :: s = u ++ t ++ v ∧ (∀ c, u.getLast? = some c → isBlank c = true) ∧ (∀ c, v.head? = some c → isBlank c = true) := by
        intro h
        obtain ⟨h1, h2, u, v, h3, h4, h5⟩ := key h
        refine ⟨h1, h2, acc ++ c :: u, v, ?_, ?_, h5⟩
        · rw [List.nil_append] at h3
          rw [h3]
          simp
        · intro d hd
          rcases List.eq_nil_or_concat u with rfl | ⟨u', e, rfl⟩
          · simp at hd
            rw [← hd]; exact hc
          · rw [show acc ++ c :: u'.concat e = (acc ++ c :: u') ++ [e] by simp, List.getLast?_concat] at hd
            exact h4 d (by rw [List.concat_eq_append, List.getLast?_concat, hd])
      split at h
      · exact lift h
      · next h0 =>
        rcases List.mem_cons.1 h with rfl | h
        · exact ⟨h0, ha, [], c :: s, by simp, by simp, by simpa using hc⟩
        · exact lift h
    | false =>
      rw [hc, if_neg Bool.false_ne_true] at h
      obtain ⟨h1, h2, u, v, h3, h4⟩ := ih (by
        intro d hd
        rcases List.mem_append.1 hd with hd | hd
        · exact ha d hd
        · rw [List.mem_singleton.1 hd]; exact hc) h
      exact ⟨h1, h2, u, v, by rw [← h3]; simp, h4⟩

theorem hasClass_iff (e : Element) (t : Str) : HasClass e t ↔ t ∈ classTokens e.className := by
  constructor
  · rintro ⟨h0, hb, u, v, h, hu, hv⟩
    have tail : t ∈ classTokens (t ++ v) := by
      cases v with
      | nil => rw [List.append_nil, classTokens_word hb h0]; exact List.mem_singleton_self _
      | cons b v => rw [classTokens_blank (hv b rfl), classTokens_word hb h0]; simp
    rw [h]
    rcases List.eq_nil_or_concat u with rfl | ⟨u', b, rfl⟩
    · exact tail
    · have := classTokens_blank (hu b (by simp)) u' (t ++ v)
      rw [show u'.concat b ++ t ++ v = u' ++ b :: (t ++ v) by simp, this]
      exact List.mem_append_right _ tail
  · intro h
    have := tokensFrom_mem (acc := []) (by simp) h
    rwa [List.nil_append] at this

theorem mem_tokens_word {s t : Str} (h : t ∈ classTokens s) : t ≠ [] ∧ ∀ c ∈ t, isBlank c = false :=
  let h := tokensFrom_mem (acc := []) (by simp) h; ⟨h.1, h.2.1⟩

/-- The serialisation of words consists of these words. -/
theorem classTokens_join : ∀ {l : List Str}, (∀ t ∈ l, t ≠ [] ∧ ∀ c ∈ t, isBlank c = false) → classTokens (joinTokens l) = l
  | [], _ => rfl
  | [t], h => classTokens_word (h t List.mem_cons_self).2 (h t List.mem_cons_self).1
  | t :: u :: l, h => by
    show classTokens (t ++ str% " " ++ joinTokens (u :: l)) = _
    rw [List.append_assoc]
    show classTokens (t ++ ' ' :: joinTokens (u :: l)) = _
    rw [classTokens_blank (by decide), classTokens_word (h t List.mem_cons_self).2 (h t List.mem_cons_self).1,
      classTokens_join fun x hx => h x (List.mem_cons_of_mem _ hx)]
    rfl

theorem mem_orderedSet (l : List Str) (x : Str) : x ∈ orderedSet l ↔ x ∈ l := by
  have : ∀ (l acc : List Str), x ∈ l.foldl (fun acc t => if t ∈ acc then acc else acc ++ [t]) acc ↔ x ∈ acc ∨ x ∈ l := by
    intro l
    induction l with
    | nil => simp
    | cons t l ih =>
      intro acc
      rw [List.foldl_cons, ih, List.mem_cons]
      split
      · constructor
        · rintro (h | h)
          · exact .inl h
          · exact .inr (.inr h)
        · rintro (h | rfl | h)
          · exact .inl h
          · exact .inl ‹_›
          · exact .inr h
      · rw [List.mem_append, List.mem_singleton, or_assoc]
  unfold orderedSet
  rw [this]
  simp

theorem mem_classAdd {t : Str} (h0 : t ≠ []) (hb : ∀ c ∈ t, isBlank c = false) (s x : Str) : x ∈ classTokens (classAdd t s) ↔ x = t ∨ x ∈ classTokens s := by
  unfold classAdd
  rw [classTokens_join]
  · rw [mem_orderedSet, List.mem_append, List.mem_singleton, or_comm]
  · intro u hu
    rw [mem_orderedSet, List.mem_append, List.mem_singleton] at hu
    rcases hu with hu | rfl
    · exact mem_tokens_word hu
    · exact ⟨h0, hb⟩

theorem mem_classRemove (t s x : Str) : x ∈ classTokens (classRemove t s) ↔ x ≠ t ∧ x ∈ classTokens s := by
  unfold classRemove
  rw [classTokens_join]
  · rw [List.mem_filter, mem_orderedSet, and_comm, decide_eq_true_iff]
  · intro u hu
    rw [List.mem_filter, mem_orderedSet] at hu
    exact mem_tokens_word hu.1

/-! ### Replacing -/

section

variable {p r : Str}

/-- Occurrences do not extend over white space. -/
theorem replaceFrom_blank (hp : p ≠ []) (hb : ∀ c ∈ p, isBlank c = false) {b : Char} (hbb : isBlank b = true) (u v : Str) (k : Nat) (hk : k ≤ u.length) :
    replaceFrom p r k (u ++ b :: v) = replaceFrom p r k u ++ b :: replaceFrom p r 0 v := by
  induction u generalizing k with
  | nil =>
    obtain rfl : k = 0 := Nat.le_zero.1 hk
    show (if p.isPrefixOf (b :: v) then _ else _) = _
    rw [if_neg]
    · rfl
    · intro h
      cases p with
      | nil => exact hp rfl
      | cons d p =>
        have := (List.cons_prefix_cons.1 (List.isPrefixOf_iff_prefix.1 h)).1
        rw [← this, hb d List.mem_cons_self] at hbb
        cases hbb
  | cons c u ih =>
    cases k with
    | succ k => exact ih k (Nat.le_of_succ_le_succ hk)
    | zero =>
      show (if p.isPrefixOf (c :: (u ++ b :: v)) then _ else _) = (if p.isPrefixOf (c :: u) then _ else _) ++ _
      have iff : p <+: c :: (u ++ b :: v) ↔ p <+: c :: u := by
        constructor
        · intro h
          rcases List.prefix_or_prefix_of_prefix h (show c :: u <+: c :: (u ++ b :: v) from ⟨b :: v, rfl⟩) with h' | ⟨w, hw⟩
          · exact h'
          · cases w with
            | nil => rw [List.append_nil] at hw; exact ⟨[], by rw [hw, List.append_nil]⟩
            | cons d w =>
              rw [← hw] at h
              have h := List.cons_prefix_cons.1 h
              have h := (List.prefix_append_right_inj u).1 h.2
              have hd := (List.cons_prefix_cons.1 h).1
              have := hb d (by rw [← hw]; simp)
              rw [hd, hbb] at this
              cases this
        · exact fun h => h.trans ⟨b :: v, rfl⟩
      by_cases h : p <+: c :: u
      · rw [if_pos (List.isPrefixOf_iff_prefix.2 h), if_pos (List.isPrefixOf_iff_prefix.2 (iff.2 h)), show u.append (b :: v) = u ++ b :: v from rfl, ih, List.append_assoc]
        have := h.length_le
        rw [List.length_cons] at this
        omega
      · rw [if_neg (fun h' => h (List.isPrefixOf_iff_prefix.1 h')), if_neg (fun h' => h (iff.1 (List.isPrefixOf_iff_prefix.1 h'))),
          show u.append (b :: v) = u ++ b :: v from rfl, ih 0 (Nat.zero_le _)]
        rfl

theorem replaceFrom_drop (k : Nat) (s : Str) : replaceFrom p r k s = replaceFrom p r 0 (s.drop k) := by
  induction s generalizing k with
  | nil => cases k <;> rfl
  | cons c s ih =>
    cases k with
    | zero => rfl
    | succ k => exact ih k

/-- Either there is no occurrence and nothing changes, or the first one is replaced. -/
theorem replace_cases (hp : p ≠ []) (t : Str) : (¬ p <:+: t ∧ replaceFrom p r 0 t = t) ∨ ∃ u v, t = u ++ p ++ v ∧ replaceFrom p r 0 t = u ++ r ++ replaceFrom p r 0 v := by
  induction t with
  | nil => exact .inl ⟨fun h => hp (List.infix_nil.1 h), rfl⟩
  | cons c s ih =>
    by_cases h : p <+: c :: s
    · obtain ⟨v, hv⟩ := h
      right
      refine ⟨[], v, hv.symm, ?_⟩
      show (if p.isPrefixOf (c :: s) then r ++ replaceFrom p r (p.length - 1) s else _) = _
      rw [if_pos (List.isPrefixOf_iff_prefix.2 ⟨v, hv⟩), replaceFrom_drop]
      cases p with
      | nil => exact absurd rfl hp
      | cons d p =>
        have : s = p ++ v := (List.cons.inj hv).2.symm
        rw [this]
        simp
    · have e : replaceFrom p r 0 (c :: s) = c :: replaceFrom p r 0 s := if_neg fun h' => h (List.isPrefixOf_iff_prefix.1 h')
      rw [e]
      rcases ih with ⟨h1, h2⟩ | ⟨u, v, h1, h2⟩
      · left
        refine ⟨fun h' => ?_, by rw [h2]⟩
        rcases List.infix_cons_iff.1 h' with h' | h'
        · exact h h'
        · exact h1 h'
      · right
        exact ⟨c :: u, v, by rw [h1]; rfl, by rw [h2]; rfl⟩

theorem replace_ne_nil (hp : p ≠ []) (hr : r ≠ []) {t : Str} (ht : t ≠ []) : replaceFrom p r 0 t ≠ [] := by
  rcases replace_cases (r := r) hp t with ⟨-, h⟩ | ⟨u, v, -, h⟩
  · rw [h]; exact ht
  · rw [h]
    simp [hr]

theorem replace_word (hr : ∀ c ∈ r, isBlank c = false) {t : Str} (ht : ∀ c ∈ t, isBlank c = false) (k : Nat) : ∀ c ∈ replaceFrom p r k t, isBlank c = false := by
  induction t generalizing k with
  | nil => cases k <;> exact fun c hc => nomatch hc
  | cons d t ih =>
    have ih := ih fun c hc => ht c (List.mem_cons_of_mem _ hc)
    cases k with
    | succ k => exact ih k
    | zero =>
      intro c hc
      change c ∈ (if p.isPrefixOf (d :: t) then r ++ replaceFrom p r (p.length - 1) t else d :: replaceFrom p r 0 t) at hc
      split at hc
      · rcases List.mem_append.1 hc with hc | hc
        · exact hr c hc
        · exact ih _ c hc
      · rcases List.mem_cons.1 hc with rfl | hc
        · exact ht c List.mem_cons_self
        · exact ih _ c hc

/-- Replacing in a class attribute is replacing in every class. -/
theorem classTokens_replace (hp : p ≠ []) (hb : ∀ c ∈ p, isBlank c = false) (hr : r ≠ []) (hrb : ∀ c ∈ r, isBlank c = false) (s : Str) :
    classTokens (replaceFrom p r 0 s) = (classTokens s).map (replaceFrom p r 0) := by
  have key : ∀ n, ∀ s : Str, s.length ≤ n → classTokens (replaceFrom p r 0 s) = (classTokens s).map (replaceFrom p r 0) := by
    intro n
    induction n with
    | zero =>
      intro s hs
      obtain rfl : s = [] := List.length_eq_zero_iff.1 (Nat.le_zero.1 hs)
      rfl
    | succ n ih =>
      intro s hs
      by_cases h : ∃ c ∈ s, isBlank c = true
      · obtain ⟨c, hc, hcb⟩ := h
        obtain ⟨u, v, rfl⟩ := List.append_of_mem hc
        rw [List.length_append, List.length_cons] at hs
        rw [replaceFrom_blank hp hb hcb u v 0 (Nat.zero_le _), classTokens_blank hcb, classTokens_blank hcb, List.map_append, ih u (by omega), ih v (by omega)]
      · have hw : ∀ c ∈ s, isBlank c = false := fun c hc => Bool.eq_false_iff.2 fun h' => h ⟨c, hc, h'⟩
        cases s with
        | nil => rfl
        | cons c s =>
          rw [classTokens_word hw (by simp), classTokens_word (replace_word hrb hw 0) (replace_ne_nil hp hr (by simp))]
          rfl
  exact key _ s le_rfl

end

/-! ### One element -/

/-- What `exchange` does to an element. -/
def exchange1 (quirks : Bool) (p r : Str) (e : Element) : Element := if matchesClass quirks p e then { e with className := replaceFrom p r 0 e.className } else e

/-- What `addToBody` does to an element. -/
def body1 (t : Str) (e : Element) : Element := if e.tag = str% "body" then { e with className := classAdd t e.className } else e

/-- Two classes that can be exchanged. -/
structure Exchangeable (p r : Str) : Prop where
  p0 : p ≠ []
  pb : ∀ c ∈ p, isBlank c = false
  r0 : r ≠ []
  rb : ∀ c ∈ r, isBlank c = false
  pr : ¬ p <:+: r
  rp : ¬ r <:+: p

theorem exchange1_same (quirks : Bool) (p r : Str) (e : Element) : (exchange1 quirks p r e).tag = e.tag ∧ (exchange1 quirks p r e).id = e.id := by
  unfold exchange1
  split <;> exact ⟨rfl, rfl⟩

theorem exchange1_tokens {p r : Str} (h : Exchangeable p r) (quirks : Bool) (e : Element) :
    (∀ x, x ∈ classTokens (exchange1 quirks p r e).className ↔ ∃ y ∈ classTokens e.className, replaceFrom p r 0 y = x) ∨
      (exchange1 quirks p r e = e ∧ p ∉ classTokens e.className) := by
  unfold exchange1
  cases hm : matchesClass quirks p e with
  | true =>
    left
    intro x
    rw [if_pos rfl]
    dsimp only
    rw [classTokens_replace h.p0 h.pb h.r0 h.rb, List.mem_map]
  | false =>
    right
    rw [if_neg Bool.false_ne_true]
    refine ⟨rfl, fun hp => ?_⟩
    unfold matchesClass at hm
    rw [List.any_eq_false] at hm
    have := hm p hp
    simp at this

theorem exchange1_gone {p r : Str} (h : Exchangeable p r) (quirks : Bool) (e : Element) : p ∉ classTokens (exchange1 quirks p r e).className := by
  rcases exchange1_tokens h quirks e with ht | ⟨he, hp⟩
  · rw [ht]
    rintro ⟨y, -, hy⟩
    rcases replace_cases (r := r) h.p0 y with ⟨h1, h2⟩ | ⟨u, v, -, h2⟩
    · rw [h2] at hy
      exact h1 (hy ▸ List.infix_refl _)
    · exact h.rp ⟨u, _, h2.symm.trans hy⟩
  · rw [he]; exact hp

theorem exchange1_new {p r : Str} (h : Exchangeable p r) (quirks : Bool) (e : Element) :
    r ∈ classTokens (exchange1 quirks p r e).className ↔ r ∈ classTokens e.className ∨ p ∈ classTokens e.className := by
  have hp : replaceFrom p r 0 p = r := by
    rcases replace_cases (r := r) h.p0 p with ⟨h1, -⟩ | ⟨u, v, h1, h2⟩
    · exact absurd (List.infix_refl _) h1
    · have := congrArg List.length h1
      rw [List.length_append, List.length_append] at this
      obtain rfl : u = [] := List.length_eq_zero_iff.1 (by omega)
      obtain rfl : v = [] := List.length_eq_zero_iff.1 (by omega)
      rw [h2]
      simp [replaceFrom]
  have hr : replaceFrom p r 0 r = r := by
    rcases replace_cases (r := r) h.p0 r with ⟨-, h2⟩ | ⟨u, v, h1, -⟩
    · exact h2
    · exact absurd ⟨u, v, h1.symm⟩ h.pr
  rcases exchange1_tokens h quirks e with ht | ⟨he, hp'⟩
  · rw [ht]
    constructor
    · rintro ⟨y, hy, e⟩
      rcases replace_cases (r := r) h.p0 y with ⟨-, h2⟩ | ⟨u, v, h1, h2⟩
      · rw [h2] at e
        exact .inl (e ▸ hy)
      · rw [h2] at e
        have := congrArg List.length e
        rw [List.length_append, List.length_append] at this
        obtain rfl : u = [] := List.length_eq_zero_iff.1 (by omega)
        have hv : replaceFrom p r 0 v = [] := List.length_eq_zero_iff.1 (by omega)
        have : v = [] := by
          by_contra hv0
          exact replace_ne_nil h.p0 h.r0 hv0 hv
        subst this
        rw [List.nil_append, List.append_nil] at h1
        exact .inr (h1 ▸ hy)
    · rintro (hy | hy)
      · exact ⟨r, hy, hr⟩
      · exact ⟨p, hy, hp⟩
  · rw [he]
    exact ⟨.inl, fun h => h.resolve_right hp'⟩

theorem exchange1_other {p r : Str} (h : Exchangeable p r) (quirks : Bool) (e : Element) {q : Str} (hp : ¬ p <:+: q) (hr : ¬ r <:+: q) :
    q ∈ classTokens (exchange1 quirks p r e).className ↔ q ∈ classTokens e.className := by
  rcases exchange1_tokens h quirks e with ht | ⟨he, -⟩
  · rw [ht]
    constructor
    · rintro ⟨y, hy, e⟩
      rcases replace_cases (r := r) h.p0 y with ⟨-, h2⟩ | ⟨u, v, -, h2⟩
      · rw [h2] at e
        exact e ▸ hy
      · exact absurd ⟨u, _, h2.symm.trans e⟩ hr
    · intro hq
      refine ⟨q, hq, ?_⟩
      rcases replace_cases (r := r) h.p0 q with ⟨-, h2⟩ | ⟨u, v, h1, -⟩
      · exact h2
      · exact absurd ⟨u, v, h1.symm⟩ hp
  · rw [he]

theorem body1_same (t : Str) (e : Element) : (body1 t e).tag = e.tag ∧ (body1 t e).id = e.id := by
  unfold body1
  split <;> exact ⟨rfl, rfl⟩

theorem body1_tokens {t : Str} (h0 : t ≠ []) (hb : ∀ c ∈ t, isBlank c = false) (e : Element) (x : Str) :
    x ∈ classTokens (body1 t e).className ↔ (x = t ∧ e.tag = str% "body") ∨ x ∈ classTokens e.className := by
  unfold body1
  split
  · next h => rw [mem_classAdd h0 hb]; simp [h]
  · next h => simp [h]

/-- What the last step does to an element. -/
def table1 (T : Theme) (e : Element) : Element :=
  match T with
  | .dark => if e.tag = str% "table" then { e with className := classAdd (str% "table-dark") e.className } else e
  | .light => if e.tag = str% "table" then
      if str% "table-dark" ∈ classTokens e.className then { e with className := classRemove (str% "table-dark") e.className } else e
    else e

theorem table1_same (T : Theme) (e : Element) : (table1 T e).tag = e.tag ∧ (table1 T e).id = e.id := by
  unfold table1
  cases T
  · dsimp only
    split
    · split <;> exact ⟨rfl, rfl⟩
    · exact ⟨rfl, rfl⟩
  · dsimp only
    split <;> exact ⟨rfl, rfl⟩

theorem table1_other (T : Theme) (e : Element) {x : Str} (hx : x ≠ str% "table-dark") : x ∈ classTokens (table1 T e).className ↔ x ∈ classTokens e.className := by
  unfold table1
  cases T
  · dsimp only
    split
    · split
      · rw [mem_classRemove]; simp [hx]
      · rfl
    · rfl
  · dsimp only
    split
    · rw [mem_classAdd (by decide) (by decide)]; simp [hx]
    · rfl

theorem table1_dark (T : Theme) (e : Element) :
    str% "table-dark" ∈ classTokens (table1 T e).className ↔ if e.tag = str% "table" then T = .dark else str% "table-dark" ∈ classTokens e.className := by
  unfold table1
  cases T
  · dsimp only
    split
    · split
      · rw [mem_classRemove]; simp
      · next h => simp [h]
    · rfl
  · dsimp only
    split
    · rw [mem_classAdd (by decide) (by decide)]; simp
    · rfl

/-- What a change of the theme does to an element. -/
def paint (quirks : Bool) (T : Theme) (e : Element) : Element :=
  table1 T (body1 T.text (exchange1 quirks T.other.text T.text (body1 T.bg (exchange1 quirks T.other.bg T.bg e))))

theorem infix_dec (a b : Str) : a <:+: b ↔ (List.tails b).any (fun t => a.isPrefixOf t) = true := by
  rw [List.any_eq_true, List.infix_iff_prefix_suffix]
  constructor
  · rintro ⟨t, h1, h2⟩
    exact ⟨t, (List.mem_tails _ _).2 h2, List.isPrefixOf_iff_prefix.2 h1⟩
  · rintro ⟨t, h1, h2⟩
    exact ⟨t, List.isPrefixOf_iff_prefix.1 h2, (List.mem_tails _ _).1 h1⟩

theorem bg_exchangeable (T : Theme) : Exchangeable T.other.bg T.bg := by
  cases T <;> exact ⟨by decide, by decide, by decide, by decide, by rw [infix_dec]; decide, by rw [infix_dec]; decide⟩

theorem text_exchangeable (T : Theme) : Exchangeable T.other.text T.text := by
  cases T <;> exact ⟨by decide, by decide, by decide, by decide, by rw [infix_dec]; decide, by rw [infix_dec]; decide⟩

theorem bg_text (T S : Theme) : ¬ T.bg <:+: S.text ∧ ¬ T.text <:+: S.bg ∧ ¬ T.bg <:+: str% "table-dark" ∧ ¬ T.text <:+: str% "table-dark" := by
  cases T <;> cases S <;> simp only [infix_dec] <;> decide

theorem theme_ne (T : Theme) : T.bg ≠ str% "table-dark" ∧ T.text ≠ str% "table-dark" ∧ T.bg ≠ T.other.bg ∧ T.text ≠ T.other.text ∧ T.bg ≠ T.text ∧ T.other.bg ≠ T.text ∧
    T.other.text ≠ T.bg := by
  cases T <;> decide

theorem other_other (T : Theme) : T.other.other = T := by cases T <;> rfl

/-- C95: what a change of the theme does to an element. -/
theorem C95_element (quirks : Bool) (T : Theme) (e : Element) : Themed T e (paint quirks T e) := by
  have hb := (bg_exchangeable T)
  have ht := (text_exchangeable T)
  obtain ⟨n1, n2, n3, n4, n5, n6, n7⟩ := theme_ne T
  have m1 : T.other.bg ≠ str% "table-dark" := (theme_ne T.other).1
  have m2 : T.other.text ≠ str% "table-dark" := (theme_ne T.other).2.1
  have ta : ∀ e : Element, (body1 T.bg (exchange1 quirks T.other.bg T.bg e)).tag = e.tag := fun e => (body1_same _ _).1.trans (exchange1_same _ _ _ _).1
  have tb : ∀ e : Element, (exchange1 quirks T.other.text T.text (body1 T.bg (exchange1 quirks T.other.bg T.bg e))).tag = e.tag := fun e =>
    (exchange1_same _ _ _ _).1.trans (ta e)
  constructor
  · exact (table1_same _ _).1.trans ((body1_same _ _).1.trans (tb e))
  · exact (table1_same _ _).2.trans ((body1_same _ _).2.trans ((exchange1_same _ _ _ _).2.trans ((body1_same _ _).2.trans (exchange1_same _ _ _ _).2)))
  · rw [hasClass_iff, hasClass_iff, hasClass_iff]
    unfold paint
    rw [table1_other T _ n1, body1_tokens ht.r0 ht.rb, exchange1_other ht _ _ (bg_text T.other T).2.1 (bg_text T T).2.1, body1_tokens hb.r0 hb.rb,
      (exchange1_same _ _ _ _).1, exchange1_new hb]
    simp only [n5, false_and, false_or, true_and, (exchange1_same quirks T.other.bg T.bg e).1]
    tauto
  · rw [hasClass_iff]
    unfold paint
    rw [table1_other T _ m1, body1_tokens ht.r0 ht.rb, exchange1_other ht _ _ (bg_text T.other T.other).2.1 (bg_text T T.other).2.1, body1_tokens hb.r0 hb.rb]
    rintro (⟨h, -⟩ | ⟨h, -⟩ | h)
    · exact n6 h
    · exact n3 h.symm
    · exact exchange1_gone hb _ _ h
  · rw [hasClass_iff, hasClass_iff, hasClass_iff]
    unfold paint
    rw [table1_other T _ n2, body1_tokens ht.r0 ht.rb, tb, exchange1_new ht, body1_tokens hb.r0 hb.rb, body1_tokens hb.r0 hb.rb,
      exchange1_other hb _ _ (bg_text T.other T).1 (bg_text T T).1, exchange1_other hb _ _ (bg_text T.other T.other).1 (bg_text T T.other).1]
    simp only [n5.symm, n7, false_and, false_or, true_and]
    tauto
  · rw [hasClass_iff]
    unfold paint
    rw [table1_other T _ m2, body1_tokens ht.r0 ht.rb]
    rintro (⟨h, -⟩ | h)
    · exact n4 h.symm
    · exact exchange1_gone ht _ _ h
  · rw [hasClass_iff, hasClass_iff]
    unfold paint
    rw [table1_dark, (body1_same _ _).1, tb, body1_tokens ht.r0 ht.rb, exchange1_other ht _ _ (bg_text T.other T).2.2.2 (bg_text T T).2.2.2,
      body1_tokens hb.r0 hb.rb, exchange1_other hb _ _ (bg_text T.other T).2.2.1 (bg_text T T).2.2.1]
    simp only [n1.symm, n2.symm, false_and, false_or]
  · intro t hn
    have hbg : ∀ S : Theme, ¬ S.bg <:+: t := fun S => by cases S; exacts [hn.1, hn.2.1]
    have htx : ∀ S : Theme, ¬ S.text <:+: t := fun S => by cases S; exacts [hn.2.2.1, hn.2.2.2.1]
    rw [hasClass_iff, hasClass_iff]
    unfold paint
    rw [table1_other T _ hn.2.2.2.2, body1_tokens ht.r0 ht.rb, exchange1_other ht _ _ (htx _) (htx _), body1_tokens hb.r0 hb.rb,
      exchange1_other hb _ _ (hbg _) (hbg _)]
    have h1 : t ≠ T.text := fun h => htx T (h ▸ List.infix_refl _)
    have h2 : t ≠ T.bg := fun h => hbg T (h ▸ List.infix_refl _)
    simp only [h1, h2, false_and, false_or]

/-- One theme after the other is the last one. -/
theorem themed_trans {T S : Theme} {e e' e'' : Element} (h : Themed T e e') (h' : Themed S e' e'') : Themed S e e'' := by
  have either : S = T ∨ S = T.other := by cases S <;> cases T <;> decide
  constructor
  · rw [h'.tag, h.tag]
  · rw [h'.id, h.id]
  · rw [h'.bg, h.tag]
    rcases either with rfl | rfl
    · have := h.noBg
      rw [h.bg]
      tauto
    · have := h.noBg
      rw [other_other, h.bg]
      tauto
  · exact h'.noBg
  · rw [h'.text, h.tag]
    rcases either with rfl | rfl
    · have := h.noText
      rw [h.text]
      tauto
    · have := h.noText
      rw [other_other, h.text]
      tauto
  · exact h'.noText
  · rw [h'.table, h.tag, h.table]
    split <;> rfl
  · intro t ht
    rw [h'.rest t ht, h.rest t ht]

/-! ### Sessions -/

theorem darkMode_eq (quirks : Bool) (p : ThemedPage) : p.darkMode quirks = ⟨p.elements.map (paint quirks .dark), true, some (str% "dark")⟩ := by
  unfold ThemedPage.darkMode addToBody exchange
  simp only [List.map_map]
  rfl

theorem lightMode_eq (quirks : Bool) (p : ThemedPage) : p.lightMode quirks = ⟨p.elements.map (paint quirks .light), false, some (str% "light")⟩ := by
  unfold ThemedPage.lightMode addToBody exchange
  simp only [List.map_map]
  rfl

/-- The handler of the switch. -/
theorem onToggle_eq (quirks : Bool) (p : ThemedPage) :
    let T : Theme := if p.checked then .dark else .light
    p.onToggle quirks = ⟨p.elements.map (paint quirks T), p.checked, some T.word⟩ := by
  obtain ⟨l, c, s⟩ := p
  cases c
  · exact lightMode_eq quirks _
  · exact darkMode_eq quirks _

theorem forall₂_map_trans {l l' : List Element} {T S : Theme} (f : Element → Element) (hf : ∀ e, Themed S e (f e)) (h : List.Forall₂ (Themed T) l l') :
    List.Forall₂ (Themed S) l (l'.map f) := by
  induction h with
  | nil => exact .nil
  | cons h _ ih => exact .cons (themed_trans h (hf _)) ih

theorem forall₂_map_self {l : List Element} {S : Theme} (f : Element → Element) (hf : ∀ e, Themed S e (f e)) : List.Forall₂ (Themed S) l (l.map f) := by
  induction l with
  | nil => exact .nil
  | cons e l ih => exact .cons (hf e) ih

/-- The browser shows a page in a theme, or a page without a switch as it came. -/
structure InTheme (T : Option Theme) (switch : Bool) (page : List Element) (b : ThemeBrowser) : Prop where
  stored : b.stored = T.map Theme.word
  has : switch = true ↔ ∃ e ∈ page, e.id = str% "lightSwitch"
  themed : switch = true → ∃ S, T = some S ∧ b.switch = some (decide (S = .dark)) ∧ List.Forall₂ (Themed S) page b.elements
  plain : switch = false → b.switch = none ∧ b.elements = page

theorem inTheme_steps {es : List ThemeEvent} (hes : ∀ e ∈ es, NotRestored e) {T : Option Theme} {switch : Bool} {page : List Element} {b : ThemeBrowser}
    (h : InTheme T switch page b) : ∃ switch', InTheme (chosenTheme T switch es) switch' (lastPage es page) (es.foldl ThemeBrowser.step b) := by
  induction es generalizing T switch page b with
  | nil => cases switch <;> exact ⟨_, h⟩
  | cons e es ih =>
    have hes' := fun x hx => hes x (List.mem_cons_of_mem _ hx)
    have he := hes e List.mem_cons_self
    cases e with
    | visit l quirks restored prefersDark =>
      obtain rfl : restored = false := he
      unfold chosenTheme
      show ∃ s, InTheme _ s (lastPage es l) (es.foldl ThemeBrowser.step (b.step (.visit l quirks false prefersDark)))
      by_cases hl : ∃ e ∈ l, e.id = str% "lightSwitch"
      · rw [if_pos hl]
        apply ih hes'
        have hany : l.any (·.id = str% "lightSwitch") = true := by
          obtain ⟨e, h1, h2⟩ := hl
          exact List.any_eq_true.2 ⟨e, h1, decide_eq_true h2⟩
        unfold ThemeBrowser.step
        dsimp only
        rw [if_pos hany]
        unfold themeSetup
        rw [onToggle_eq, h.stored]
        obtain ⟨S, hS⟩ : ∃ S, T.or (some (if prefersDark then Theme.dark else .light)) = some S := by cases T <;> exact ⟨_, rfl⟩
        have hset : (false || decide (((T.map Theme.word).getD (if prefersDark then str% "dark" else str% "light")) = str% "dark")) = decide (S = .dark) := by
          cases T with
          | none =>
            cases hS
            cases prefersDark <;> decide
          | some T =>
            cases hS
            cases S <;> cases prefersDark <;> decide
        dsimp only
        rw [hset, hS]
        have hT : (if decide (S = .dark) = true then Theme.dark else .light) = S := by cases S <;> rfl
        rw [hT]
        exact ⟨rfl, ⟨fun _ => hl, fun _ => rfl⟩, fun _ => ⟨S, rfl, rfl, forall₂_map_self _ (C95_element quirks S)⟩, (fun h => nomatch h)⟩
      · rw [if_neg hl]
        apply ih hes'
        have hany : l.any (·.id = str% "lightSwitch") ≠ true := by
          intro h
          obtain ⟨e, h1, h2⟩ := List.any_eq_true.1 h
          exact hl ⟨e, h1, of_decide_eq_true h2⟩
        unfold ThemeBrowser.step
        dsimp only
        rw [if_neg hany]
        exact ⟨h.stored, ⟨(fun h => nomatch h), fun h => absurd h hl⟩, (fun h => nomatch h), fun _ => ⟨rfl, rfl⟩⟩
    | click =>
      show ∃ s, InTheme _ s (lastPage es page) (es.foldl ThemeBrowser.step (b.step .click))
      cases switch with
      | false =>
        obtain ⟨h1, h2⟩ := h.plain rfl
        have : b.step .click = b := by
          unfold ThemeBrowser.step
          rw [h1]
        rw [this]
        exact ih hes' h
      | true =>
        obtain ⟨S, rfl, h1, h2⟩ := h.themed rfl
        refine ih hes' (T := some S.other) (switch := true) ?_
        unfold ThemeBrowser.step
        rw [h1]
        dsimp only
        rw [onToggle_eq]
        dsimp only
        have hT : (if (!decide (S = .dark)) = true then Theme.dark else .light) = S.other := by cases S <;> rfl
        have hc : (!decide (S = .dark)) = decide (S.other = .dark) := by cases S <;> rfl
        rw [hT, hc]
        exact ⟨rfl, h.has, fun _ => ⟨S.other, rfl, rfl, forall₂_map_trans _ (C95_element b.quirks S.other) h2⟩, (fun h => nomatch h)⟩

/-- C95: whatever pages are opened and however often the switch is clicked, the page that is open, if it has a switch, is shown in the theme chosen, the switch
shows this theme, and so does local storage; other pages are shown as they come.  The theme chosen is that of the system when the first page with a switch was
opened, and every click turns it around; later changes of the system have no effect. -/
theorem C95_session (stored : Option Theme) (es : List ThemeEvent) (hes : ∀ e ∈ es, NotRestored e) :
    let b := es.foldl ThemeBrowser.step ⟨stored.map Theme.word, [], false, none⟩
    let T := chosenTheme stored false es
    b.stored = T.map Theme.word ∧
    ((¬ ∃ e ∈ lastPage es [], e.id = str% "lightSwitch") ∧ b.switch = none ∧ b.elements = lastPage es [] ∨
      (∃ e ∈ lastPage es [], e.id = str% "lightSwitch") ∧ ∃ S, T = some S ∧ b.switch = some (decide (S = .dark)) ∧ List.Forall₂ (Themed S) (lastPage es []) b.elements) := by
  obtain ⟨switch, h⟩ := inTheme_steps hes (T := stored) (switch := false) (page := []) (b := ⟨stored.map Theme.word, [], false, none⟩)
    ⟨rfl, ⟨(fun h => nomatch h), (by rintro ⟨e, h, -⟩; cases h)⟩, (fun h => nomatch h), fun _ => ⟨rfl, rfl⟩⟩
  refine ⟨h.stored, ?_⟩
  cases switch with
  | false => exact .inl ⟨(fun h' => nomatch h.has.2 h'), h.plain rfl⟩
  | true => exact .inr ⟨h.has.1 rfl, h.themed rfl⟩

theorem switch_of_ids {ts : List Token} (h : str% "lightSwitch" ∈ ids ts) : ∃ e ∈ pageElements ts, e.id = str% "lightSwitch" := by
  obtain ⟨t, ht, h⟩ := List.mem_filterMap.1 h
  cases t with
  | start name attrs => exact ⟨_, List.mem_filterMap.2 ⟨_, ht, rfl⟩, by dsimp only at h ⊢; rw [h]; rfl⟩
  | char c => cases h
  | stop n => cases h

/-- C95: result pages, error pages and the list of merge requests have the switch. -/
theorem C95_pages :
    (∀ {b : Build} {version : Str} {repos : List Str} {org : Str} {a : CompareArgs} {diff : List ExtrinsicDiff} {wasCached : Bool} {page : Str},
      BareNames repos → comparePage b version repos org a diff wasCached = .ok page → ∃ e ∈ pageElements (tokens page), e.id = str% "lightSwitch") ∧
    (∀ msg, ∃ e ∈ pageElements (tokens (errorPage msg)), e.id = str% "lightSwitch") ∧
    (∀ repos, ∃ e ∈ pageElements (tokens (mergeRequestPage repos)), e.id = str% "lightSwitch") := by
  refine ⟨fun hr h => ?_, fun msg => ?_, fun repos => ?_⟩
  · obtain ⟨rest, e⟩ := page_controls hr h
    apply switch_of_ids
    rw [e, ids_append, ids_controls]
    exact List.mem_append_left _ (by decide)
  · apply switch_of_ids
    unfold errorPage
    rw [List.append_assoc, tokens_append errorTop_tokens, ids_append, ids_append]
    exact List.mem_append_left _ (List.mem_append_right _ (by decide +kernel))
  · apply switch_of_ids
    unfold mergeRequestPage
    rw [List.append_assoc, tokens_append mrTop_tokens, ids_append, ids_append]
    exact List.mem_append_left _ (List.mem_append_right _ (by decide +kernel))

/-- C95: if the browser restores the switch when a page is loaded again then the setting is not respected: the page is shown in the dark although light pages have
been chosen, and the setting is lost. -/
theorem C95_false_restored (l : List Element) (hl : ∃ e ∈ l, e.id = str% "lightSwitch") (quirks prefersDark : Bool) (b : ThemeBrowser) (hb : b.stored = some Theme.light.word) :
    (b.step (.visit l quirks true prefersDark)).stored = some Theme.dark.word ∧ List.Forall₂ (Themed .dark) l (b.step (.visit l quirks true prefersDark)).elements := by
  have hany : l.any (·.id = str% "lightSwitch") = true := by
    obtain ⟨e, h1, h2⟩ := hl
    exact List.any_eq_true.2 ⟨e, h1, decide_eq_true h2⟩
  unfold ThemeBrowser.step
  dsimp only
  rw [if_pos hany]
  unfold themeSetup
  rw [onToggle_eq]
  exact ⟨rfl, forall₂_map_self _ (C95_element quirks .dark)⟩

/-! ### A session -/

def exThemePage : List Element :=
  [⟨str% "body", [], []⟩, ⟨str% "input", str% "lightSwitch", str% "form-check-input"⟩, ⟨str% "div", [], str% "card card-body text-dark bg-light"⟩,
    ⟨str% "table", str% "sort_me", str% "display table"⟩]

/-- The system prefers dark pages; the result page is opened, the switch is clicked, the start page (without switch) and the result page are opened. -/
def exThemeEvents : List ThemeEvent :=
  [.visit exThemePage false false true, .click, .visit [⟨str% "body", [], []⟩] true false true, .visit exThemePage false false true]

example : chosenTheme none false exThemeEvents = some .light := by decide

example : ((exThemeEvents.take 1).foldl ThemeBrowser.step ⟨none, [], false, none⟩) =
    ⟨some (str% "dark"), [⟨str% "body", [], str% "bg-dark text-light"⟩, ⟨str% "input", str% "lightSwitch", str% "form-check-input"⟩,
      ⟨str% "div", [], str% "card card-body text-light bg-dark"⟩, ⟨str% "table", str% "sort_me", str% "display table table-dark"⟩], false, some true⟩ := by decide +kernel

example : (exThemeEvents.foldl ThemeBrowser.step ⟨none, [], false, none⟩) =
    ⟨some (str% "light"), [⟨str% "body", [], str% "bg-light text-dark"⟩, ⟨str% "input", str% "lightSwitch", str% "form-check-input"⟩,
      ⟨str% "div", [], str% "card card-body text-dark bg-light"⟩, ⟨str% "table", str% "sort_me", str% "display table"⟩], false, some false⟩ := by decide +kernel

end Swc
