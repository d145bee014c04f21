/-
C120: the version of a build.
-/
import Verif.Spec.Version
import Verif.Props.HttpCache
import Verif.Props.Table

namespace Swc

open Spec

/-! ### Texts -/

theorem cut_unique {c : Char} {a b a' b' : Str} (ha : c ∉ a) (ha' : c ∉ a') (h : a ++ c :: b = a' ++ c :: b') : a = a' ∧ b = b' := by
  induction a generalizing a' with
  | nil =>
    cases a' with
    | nil => exact ⟨rfl, (List.cons.inj h).2⟩
    | cons d a' => exact absurd (List.cons.inj h).1 fun e => ha' (e ▸ List.mem_cons_self)
  | cons d a ih =>
    cases a' with
    | nil => exact absurd (List.cons.inj h).1 fun e => ha (e ▸ List.mem_cons_self)
    | cons d' a' =>
      obtain ⟨e, h⟩ := List.cons.inj h
      obtain ⟨e1, e2⟩ := ih (fun hm => ha (List.mem_cons_of_mem _ hm)) (fun hm => ha' (List.mem_cons_of_mem _ hm)) h
      exact ⟨by rw [e, e1], e2⟩

/-- The same from the end. -/
theorem cut_unique_end {c : Char} {a b a' b' : Str} (hb : c ∉ b) (hb' : c ∉ b') (h : a ++ c :: b = a' ++ c :: b') : a = a' ∧ b = b' := by
  have h2 := congrArg List.reverse h
  simp only [List.reverse_append, List.reverse_cons, List.append_assoc, List.singleton_append] at h2
  obtain ⟨e1, e2⟩ := cut_unique (fun hm => hb (List.mem_reverse.1 hm)) (fun hm => hb' (List.mem_reverse.1 hm)) h2
  exact ⟨List.reverse_inj.1 e2, List.reverse_inj.1 e1⟩

theorem digit_range {n : Nat} {d : Char} (h : d ∈ natToStr n) : '0' ≤ d ∧ d ≤ '9' := by
  have := natToStr_isDigit h
  rw [Char.isDigit, Bool.and_eq_true, decide_eq_true_eq, decide_eq_true_eq] at this
  exact this

theorem dotted_chars {v : Nat × Nat × Nat} {d : Char} (h : d ∈ dotted v) : ('0' ≤ d ∧ d ≤ '9') ∨ d = '.' := by
  simp only [dotted, List.mem_append, List.mem_cons] at h
  rcases h with h | h | h | h | h
  · exact .inl (digit_range h)
  · exact .inr h
  · exact .inl (digit_range h)
  · exact .inr h
  · exact .inl (digit_range h)

theorem not_range {d lo hi : Char} (h : lo ≤ d ∧ d ≤ hi) (e : Char) (he : ¬ (lo ≤ e ∧ e ≤ hi)) : d ≠ e := fun h' => he (h' ▸ h)

theorem dotted_free {v : Nat × Nat × Nat} {e : Char} (he : ¬ ('0' ≤ e ∧ e ≤ '9')) (hd : e ≠ '.') : e ∉ dotted v := fun h =>
  (dotted_chars h).elim he hd

theorem nat_free {n : Nat} {e : Char} (he : ¬ ('0' ≤ e ∧ e ≤ '9')) : e ∉ natToStr n := fun h => he (digit_range h)

theorem dotted_injective {v w : Nat × Nat × Nat} (h : dotted v = dotted w) : v = w := by
  obtain ⟨a, b, c⟩ := v
  obtain ⟨a', b', c'⟩ := w
  obtain ⟨h1, h2⟩ := cut_unique (nat_free (by decide)) (nat_free (by decide)) h
  obtain ⟨h2, h3⟩ := cut_unique (nat_free (by decide)) (nat_free (by decide)) h2
  exact Prod.ext (natToStr_injective h1) (Prod.ext (natToStr_injective h2) (natToStr_injective h3))

/-! ### What git prints -/

section

variable (h : History)

theorem hash_free {c : h.Commit} {e : Char} (h1 : ¬ ('0' ≤ e ∧ e ≤ '9')) (h2 : ¬ ('a' ≤ e ∧ e ≤ 'f')) : e ∉ h.hash c := fun hm =>
  ((h.hash_hex c).2 e hm).elim h1 h2

/-- C120: `git describe` identifies the commit. -/
theorem C120_describe {c c' : h.Commit} (he : h.describe c = h.describe c') : c = c' := by
  have hv : ∀ {x : Str} {c : h.Commit}, 'v' :: x ≠ h.hash c := fun e => hash_free h (c := _) (e := 'v') (by decide) (by decide) (e ▸ List.mem_cons_self)
  have hd : ∀ {x t : Nat × Nat × Nat} {y : Str}, 'v' :: dotted x ≠ ('v' :: dotted t) ++ '-' :: y := by
    intro x t y e
    have : '-' ∈ 'v' :: dotted x := by rw [e]; simp
    rcases List.mem_cons.1 this with h | h
    · exact absurd h (by decide)
    · exact dotted_free (by decide) (by decide) h
  unfold History.describe releaseTag at he
  cases h1 : h.tagged c with
  | some t =>
    cases h2 : h.tagged c' with
    | some t' =>
      rw [h1, h2] at he
      dsimp only at he
      rw [dotted_injective (List.cons.inj he).2] at h1
      exact h.tag_one h1 h2
    | none =>
      cases h3 : h.nearest c' with
      | some p => rw [h1, h2, h3] at he; exact absurd he hd
      | none => rw [h1, h2, h3] at he; exact absurd he hv
  | none =>
    cases h4 : h.nearest c with
    | some p =>
      cases h2 : h.tagged c' with
      | some t' => rw [h1, h2, h4] at he; exact absurd he.symm hd
      | none =>
        cases h3 : h.nearest c' with
        | some p' =>
          rw [h1, h2, h3, h4] at he
          dsimp only at he
          have e1 : ∀ (x y z : Str), x ++ '-' :: (y ++ '-' :: 'g' :: z) = (x ++ '-' :: (y ++ ['-'])) ++ 'g' :: z := by simp
          rw [e1, e1] at he
          exact h.hash_one (cut_unique_end (hash_free h (by decide) (by decide)) (hash_free h (by decide) (by decide)) he).2
        | none => rw [h1, h2, h3, h4] at he; exact absurd he hv
    | none =>
      cases h2 : h.tagged c' with
      | some t' => rw [h1, h2, h4] at he; exact absurd he.symm hv
      | none =>
        cases h3 : h.nearest c' with
        | some p => rw [h1, h2, h3, h4] at he; exact absurd he.symm hv
        | none => rw [h1, h2, h3, h4] at he; exact h.hash_one he

/-- Which characters git prints. -/
theorem describe_chars {c : h.Commit} {d : Char} (hd : d ∈ h.describe c) : ('0' ≤ d ∧ d ≤ '9') ∨ ('a' ≤ d ∧ d ≤ 'f') ∨ d = '.' ∨ d = '-' ∨ d = 'g' ∨ d = 'v' := by
  have hdot : ∀ {t : Nat × Nat × Nat}, d ∈ releaseTag (dotted t) → ('0' ≤ d ∧ d ≤ '9') ∨ ('a' ≤ d ∧ d ≤ 'f') ∨ d = '.' ∨ d = '-' ∨ d = 'g' ∨ d = 'v' := by
    intro t hd
    rcases List.mem_cons.1 hd with rfl | hd
    · simp
    · rcases dotted_chars hd with h | h
      · exact .inl h
      · exact .inr (.inr (.inl h))
  have hhash : d ∈ h.hash c → ('0' ≤ d ∧ d ≤ '9') ∨ ('a' ≤ d ∧ d ≤ 'f') ∨ d = '.' ∨ d = '-' ∨ d = 'g' ∨ d = 'v' := fun hd =>
    ((h.hash_hex c).2 d hd).elim .inl fun h => .inr (.inl h)
  unfold History.describe at hd
  split at hd
  · exact hdot hd
  · rw [List.mem_append, List.mem_cons, List.mem_append, List.mem_cons, List.mem_cons] at hd
    rcases hd with hd | rfl | hd | rfl | rfl | hd
    · exact hdot hd
    · simp
    · exact .inl (digit_range hd)
    · simp
    · simp
    · exact hhash hd
  · exact hhash hd

theorem describe_free {c : h.Commit} {e : Char} (h1 : ¬ ('0' ≤ e ∧ e ≤ '9')) (h2 : ¬ ('a' ≤ e ∧ e ≤ 'f')) (h3 : e ∉ str% ".-gv") : e ∉ h.describe c := fun hm => by
  simp only [List.mem_cons, List.not_mem_nil, or_false, not_or] at h3
  rcases describe_chars h hm with h | h | h | h | h | h
  · exact h1 h
  · exact h2 h
  · exact h3.1 h
  · exact h3.2.1 h
  · exact h3.2.2.1 h
  · exact h3.2.2.2 h

theorem version_space (c : h.Commit) : ' ' ∉ h.version c := by
  unfold History.version libraryVersion
  rw [List.mem_append, List.mem_cons, not_or, not_or]
  exact ⟨dotted_free (by decide) (by decide), by decide, describe_free h (by decide) (by decide) (by decide)⟩

/-- C120: the version identifies the commit. -/
theorem C120_version {c c' : h.Commit} (he : h.version c = h.version c') : c = c' :=
  C120_describe h (cut_unique (dotted_free (by decide) (by decide)) (dotted_free (by decide) (by decide)) he).2

end

/-! ### The check of the server -/

/-- C120: the check passes on a server exactly if it was built from that commit, also if every `+` has become a space. -/
theorem C120_check (h : History) (c c' : h.Commit) {w : Str} (hw : w = h.version c' ∨ PlusToSpace (h.version c') w) :
    ((version (h.version c) (some w)).status = 200 ↔ c = c') ∧ ((version (h.version c) (some w)).status = 500 ↔ c ≠ c') := by
  have hsp := version_space h
  have hplus : ∀ c, '+' ∈ h.version c := fun c => by unfold History.version libraryVersion; simp
  have hspace : ∀ {v w : Str}, PlusToSpace v w → '+' ∈ v → ' ' ∈ w := by
    intro v w hv hm
    rw [← map_plus_iff] at hv
    subst hv
    exact List.mem_map.2 ⟨'+', hm, rfl⟩
  have hinj : ∀ {v v' w : Str}, PlusToSpace v w → PlusToSpace v' w → ' ' ∉ v → ' ' ∉ v' → v = v' := by
    intro v v' w h1
    induction h1 generalizing v' with
    | nil => intro h2 _ _; cases h2; rfl
    | @cons a b v w hab _ ih =>
      intro h2 hs hs'
      cases h2 with
      | @cons a' _ v' _ hab' h2 =>
        rw [List.mem_cons, not_or] at hs hs'
        rw [ih h2 hs.2 hs'.2]
        rcases hab with ⟨rfl, rfl⟩ | ⟨_, rfl⟩
        · rcases hab' with ⟨rfl, _⟩ | ⟨_, e⟩
          · rfl
          · exact absurd e hs'.1
        · rcases hab' with ⟨rfl, e⟩ | ⟨_, e⟩
          · exact absurd e.symm hs.1
          · rw [e]
  have key : (w = h.version c ∨ PlusToSpace (h.version c) w) ↔ c = c' := by
    constructor
    · intro hv
      rcases hv with hv | hv <;> rcases hw with hw | hw
      · exact C120_version h (hv.symm.trans hw)
      · exact absurd (hspace hw (hplus _)) (hv ▸ hsp c)
      · exact absurd (hspace hv (hplus _)) (hw ▸ hsp c')
      · exact C120_version h (hinj hv hw (hsp c) (hsp c'))
    · rintro rfl
      exact hw
  rw [(C65_version _ _).1, (C65_version _ _).2, key]
  exact ⟨Iff.rfl, Iff.rfl⟩

/-- C120: the same for a request, with the version in the address as it is or encoded as in a form. -/
theorem C120_request (h : History) (c c' : h.Commit) {s : Site} (hs : s.version = h.version c) {r : HttpRequest} (hr : Requests r (str% "/version"))
    (hq : r.query = (str% "is=" ++ h.version c').flatMap sendChar ∨ r.query = formSerialize [(str% "is", h.version c')]) :
    ∃ resp, s.accept r = .answer resp ∧ (resp.status = 200 ↔ c = c') ∧ (resp.status = 500 ↔ c ≠ c') := by
  have hex : ∃ w, (w = h.version c' ∨ PlusToSpace (h.version c') w) ∧ SpellsPairs [(str% "is", w)] r.query := by
    rcases hq with hq | hq
    · refine ⟨(h.version c').map unplus, .inr ((map_plus_iff _ _).1 rfl), ?_⟩
      rw [hq]
      refine .one (sendPair (p := (str% "is", h.version c')) (plainName_of (s := str% "is") (by decide)) fun d hd => ?_)
      have hfree : ∀ e, ¬ ('0' ≤ e ∧ e ≤ '9') → ¬ ('a' ≤ e ∧ e ≤ 'f') → e ∉ str% ".-gv" → e ≠ '+' → d ≠ e := by
        intro e h1 h2 h3 h4 hde
        subst hde
        unfold History.version libraryVersion at hd
        rw [List.mem_append, List.mem_cons] at hd
        rcases hd with hd | hd | hd
        · exact dotted_free h1 (fun h => h3 (by simp [h])) hd
        · exact h4 hd
        · exact describe_free h h1 h2 h3 hd
      exact ⟨hfree _ (by decide) (by decide) (by decide) (by decide), hfree _ (by decide) (by decide) (by decide) (by decide),
        hfree _ (by decide) (by decide) (by decide) (by decide), hfree _ (by decide) (by decide) (by decide) (by decide),
        hfree _ (by decide) (by decide) (by decide) (by decide), hfree _ (by decide) (by decide) (by decide) (by decide)⟩
    · exact ⟨_, .inl rfl, hq ▸ C69_serialized _⟩
  obtain ⟨w, hw, hsp⟩ := hex
  refine ⟨version s.version (some w), ?_, ?_⟩
  · unfold Site.accept
    rw [(C89_route r (h := .version) rfl).2 hr]
    dsimp only
    rw [(version_query s.u hsp (some w)).2 (.inr ⟨w, rfl, [], [], rfl, (fun _ h => nomatch h), fun _ h => nomatch h⟩)]
  · rw [hs]
    exact C120_check h c c' hw

/-- C120, against the text: builds without git, like those from crates.io, all have the same version if the package has, whatever their sources are. -/
theorem C120_unknown (package : Str) (w : Str) (hw : w = libraryVersion package none ∨ PlusToSpace (libraryVersion package none) w) :
    libraryVersion package none = package ++ str% "+unknown" ∧ (version (libraryVersion package none) (some w)).status = 200 :=
  ⟨rfl, (C65_version _ _).1.2 hw⟩

/-! ### Semantic versions -/

/-- C120: the version is one of Semantic Versioning exactly if what git printed consists of identifiers with dots between them. -/
theorem C120_semver (v : Nat × Nat × Nat) (d : Option Str) : SemVer (libraryVersion (dotted v) d) ↔ Idents (d.getD (str% "unknown")) := by
  have hid : ∀ {l : List Str}, (∀ i ∈ l, ∀ c ∈ i, IdChar c) → '+' ∉ (str% ".").intercalate l := by
    intro l hl hm
    rcases TableText.mem_intercalate hm with hc | ⟨i, hi, hc⟩
    · revert hc; decide
    · have := hl i hi _ hc
      revert this
      unfold IdChar
      decide
  constructor
  · rintro ⟨w, pre, build, h, hpre, hbuild⟩
    have hno : '+' ∉ dotted w ++ pre := by
      rw [List.mem_append, not_or]
      refine ⟨dotted_free (by decide) (by decide), ?_⟩
      rcases hpre with rfl | ⟨p, rfl, l, _, hl, rfl⟩
      · exact fun h => nomatch h
      · rw [List.mem_cons, not_or]
        exact ⟨by decide, hid fun i hi => (hl i hi).2.1⟩
    unfold libraryVersion at h
    rcases hbuild with rfl | ⟨q, rfl, hq⟩
    · rw [List.append_nil] at h
      exact absurd (h ▸ (by simp)) hno
    · rw [(cut_unique (dotted_free (by decide) (by decide)) hno h).2]
      exact hq
  · intro hd
    exact ⟨v, [], '+' :: d.getD (str% "unknown"), by simp [libraryVersion], .inl rfl, .inr ⟨_, rfl, hd⟩⟩

/-- C120: this is so for builds without git and for all builds of a history with the tags of releases. -/
theorem C120_valid (h : History) (c : h.Commit) : SemVer (h.version c) ∧ SemVer (libraryVersion (dotted (h.package c)) none) := by
  have hnat : ∀ {n : Nat} {d : Char}, d ∈ natToStr n → IdChar d := fun hd => .inl (digit_range hd)
  have hhash : ∀ {d : Char}, d ∈ h.hash c → IdChar d := by
    intro d hd
    rcases (h.hash_hex c).2 d hd with h | h
    · exact .inl h
    · exact .inr (.inr (.inl ⟨h.1, Char.le_trans h.2 (by decide)⟩))
  refine ⟨(C120_semver _ _).2 ?_, (C120_semver _ _).2 ?_⟩
  · rw [Option.getD_some]
    unfold History.describe
    split
    · rename_i t _
      refine ⟨['v' :: natToStr t.1, natToStr t.2.1, natToStr t.2.2], by simp, ?_, by simp [List.intercalate, releaseTag, dotted]⟩
      intro i hi
      simp only [List.mem_cons, List.not_mem_nil, or_false] at hi
      rcases hi with rfl | rfl | rfl
      · refine ⟨by simp, fun d hd => ?_⟩
        rcases List.mem_cons.1 hd with rfl | hd
        · unfold IdChar; decide
        · exact hnat hd
      · exact ⟨natToStr_ne_nil, fun d hd => hnat hd⟩
      · exact ⟨natToStr_ne_nil, fun d hd => hnat hd⟩
    · rename_i t n _ _
      refine ⟨['v' :: natToStr t.1, natToStr t.2.1, natToStr t.2.2 ++ '-' :: (natToStr n ++ '-' :: 'g' :: h.hash c)], by simp, ?_, by simp [List.intercalate, releaseTag, dotted]⟩
      intro i hi
      simp only [List.mem_cons, List.not_mem_nil, or_false] at hi
      rcases hi with rfl | rfl | rfl
      · refine ⟨by simp, fun d hd => ?_⟩
        rcases List.mem_cons.1 hd with rfl | hd
        · unfold IdChar; decide
        · exact hnat hd
      · exact ⟨natToStr_ne_nil, fun d hd => hnat hd⟩
      · refine ⟨by simp, fun d hd => ?_⟩
        simp only [List.mem_append, List.mem_cons] at hd
        rcases hd with hd | rfl | hd | rfl | rfl | hd
        · exact hnat hd
        · unfold IdChar; decide
        · exact hnat hd
        · unfold IdChar; decide
        · unfold IdChar; decide
        · exact hhash hd
    · exact ⟨[h.hash c], by simp, (by rintro i hi; rw [List.mem_singleton.1 hi]; exact ⟨(h.hash_hex c).1, fun d hd => hhash hd⟩), by simp [List.intercalate]⟩
  · exact ⟨[str% "unknown"], by simp, (by rintro i hi; rw [List.mem_singleton.1 hi]; exact ⟨by decide, by unfold IdChar; decide⟩), rfl⟩

/-- C120, against the text: the version never says that the sources were changed, since git is not asked (`--dirty` is missing): `VERSION_DIRTY` is false for every
build of such a history, and for every build without git. -/
theorem C120_dirty (h : History) (c : h.Commit) : versionDirty (h.version c) = false ∧ versionDirty (libraryVersion (dotted (h.package c)) none) = false := by
  have key : ∀ {s : Str}, 'y' ∉ s → versionDirty s = false := fun {s} hs => by
    cases hd : versionDirty s with
    | false => rfl
    | true => exact absurd ((show str% "dirty" <:+: s by simpa [versionDirty] using hd).subset (by decide)) hs
  refine ⟨key ?_, key ?_⟩
  · unfold History.version libraryVersion
    rw [List.mem_append, List.mem_cons, not_or, not_or]
    exact ⟨dotted_free (by decide) (by decide), by decide, describe_free h (by decide) (by decide) (by decide)⟩
  · unfold libraryVersion
    rw [List.mem_append, not_or]
    exact ⟨dotted_free (by decide) (by decide), by decide⟩

/-- C120: what the integration tests accept as the output of `--version`: exactly the name, a space and the version, if that is one of Semantic Versioning. -/
theorem C120_asserted {semver : Str → Bool} (hsem : ∀ s, semver s = true ↔ SemVer s) (h : History) (c : h.Commit) {name : Str} (hn : ' ' ∉ name) (raw : Str) :
    assertVersion semver (h.version c) raw name = .ok () ↔ raw = name ++ ' ' :: h.version c := by
  have hsplit : ∀ {a b : Str}, ' ' ∉ a → splitChar ' ' (a ++ ' ' :: b) = a :: splitChar ' ' b := by
    intro a b ha
    induction a with
    | nil => rw [List.nil_append, splitChar, if_pos rfl]
    | cons d a ih =>
      rw [List.mem_cons, not_or] at ha
      rw [List.cons_append, splitChar, if_neg (Ne.symm ha.1), ih ha.2]
  have hone : ∀ {a : Str}, ' ' ∉ a → splitChar ' ' a = [a] := by
    intro a ha
    induction a with
    | nil => rfl
    | cons d a ih =>
      rw [List.mem_cons, not_or] at ha
      rw [splitChar, if_neg (Ne.symm ha.1), ih ha.2]
  have hjoin : ∀ {raw n v : Str}, splitChar ' ' raw = [n, v] → raw = n ++ ' ' :: v := by
    intro raw n v h
    by_cases hm : ' ' ∈ raw
    · obtain ⟨a, b, rfl, ha⟩ := List.eq_append_cons_of_mem hm
      rw [hsplit ha] at h
      obtain ⟨rfl, h2⟩ := List.cons.inj h
      by_cases hb : ' ' ∈ b
      · obtain ⟨a', b', rfl, ha'⟩ := List.eq_append_cons_of_mem hb
        rw [hsplit ha'] at h2
        have hne : ∀ s, splitChar ' ' s ≠ [] := by
          intro s hs
          cases s with
          | nil => cases hs
          | cons x s =>
            rw [splitChar] at hs
            split at hs
            · cases hs
            · split at hs <;> cases hs
        exact absurd (List.cons.inj h2).2 (hne _)
      · rw [hone hb] at h2
        rw [(List.cons.inj h2).1]
    · rw [hone hm] at h; cases h
  unfold assertVersion
  constructor
  · intro h1
    split at h1
    · rename_i n v hs
      split at h1
      · rename_i hc
        rw [hjoin hs, hc.1, hc.2.2]
      · cases h1
    · cases h1
  · rintro rfl
    rw [hsplit hn, hone (version_space h c)]
    dsimp only
    rw [if_pos ⟨rfl, (hsem _).2 (C120_valid h c).1, rfl⟩]

/-! ### A concrete case -/

/-- The example: the commits 0, 1 and 2 with the hashes `a`, `b` and `c`; 1 is the release 3.4.2, and 2 is the next commit. -/
def exHistory : History where
  Commit := Fin 3
  package c := if c = 2 then (3, 4, 3) else (3, 4, 2)
  tagged c := if c = 1 then some (3, 4, 2) else none
  nearest c := if c = 2 then some ((3, 4, 2), 1) else none
  hash c := [[str% "78a04b0", str% "78a04b1", str% "78a04b2"][c]].flatten
  hash_hex := by decide
  hash_one := by decide
  tag_one := by
    intro c c' t h1 h2
    split at h1
    · split at h2
      · rename_i e1 e2; rw [e1, e2]
      · cases h2
    · cases h1

example : exHistory.version (0 : Fin 3) = str% "3.4.2+78a04b0" := by decide +kernel
example : exHistory.version (1 : Fin 3) = str% "3.4.2+v3.4.2" := by decide +kernel
example : exHistory.version (2 : Fin 3) = str% "3.4.3+v3.4.2-1-g78a04b2" := by decide +kernel
example : (version (exHistory.version (2 : Fin 3)) (some (str% "3.4.3 v3.4.2-1-g78a04b2"))).status = 200 := by decide +kernel
example : (version (exHistory.version (2 : Fin 3)) (some (str% "3.4.2+v3.4.2"))).status = 500 := by decide +kernel

/-- With other tags the version need not be one of Semantic Versioning, and can be called dirty. -/
example : ¬ SemVer (libraryVersion (dotted (3, 4, 3)) (some (str% "release/1"))) := by
  rw [C120_semver]
  rintro ⟨l, _, hl, he⟩
  have : '/' ∈ (str% ".").intercalate l := he ▸ (by decide)
  rcases TableText.mem_intercalate this with hc | ⟨i, hi, hc⟩
  · revert hc; decide
  · have := (hl i hi).2 _ hc
    revert this
    unfold IdChar
    decide
example : versionDirty (libraryVersion (dotted (3, 4, 3)) (some (str% "dirty-fix"))) = true := by decide +kernel

end Swc
