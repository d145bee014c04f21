/-
C102: how the five methods are related (`core/src/lib.rs:334-395`, `:491-657`).
C103: comparisons of three versions chain.
-/
import Verif.Props.CompareFiles

namespace Swc

namespace Spec

/-- Two reports that agree in everything but the method they name. -/
def SameReport (r r' : TermChange) : Prop :=
  r.old = r'.old ∧ r.oldV = r'.oldV ∧ r.new = r'.new ∧ r.newV = r'.newV ∧ r.scope = r'.scope ∧ r.percent = r'.percent
    ∧ r.change = r'.change

/-- `ExactOf m g`: the method `m` does the same as `g` but promises not to guess. -/
inductive ExactOf : CompareMethod → CompareMethod → Prop
  | worst : ExactOf .exactWorst .guessWorst
  | asymptotic : ExactOf .exactAsymptotic .asymptotic

/-- `Covers w m`: the worst-case method `w` looks at every point the method `m` looks at, and answers only where `m` does. -/
inductive Covers : CompareMethod → CompareMethod → Prop
  | guessBase : Covers .guessWorst .base
  | guessAsymptotic : Covers .guessWorst .asymptotic
  | exactBase : Covers .exactWorst .base
  | exactAsymptotic : Covers .exactWorst .asymptotic
  | exactExact : Covers .exactWorst .exactAsymptotic
  | exactGuess : Covers .exactWorst .guessWorst

/-- The same options with another method. -/
def withMethod (p : CompareParams) (m : CompareMethod) : CompareParams := { p with method := m }

/-- The smallest and the largest instance of every component are the same number. -/
def NoRoom (old new : Option SimpleExtrinsic) : Prop :=
  ∀ x, Component old new x → ∃ n, MinInst old new x n ∧ MaxInst old new x n

/-- Two rows of reports that agree in everything but the method they name; neither is an error. -/
def SameRow (d d' : ExtrinsicDiff) : Prop :=
  d'.file = d.file ∧ d'.name = d.name ∧
  ((∃ c c', d.change = .changed c ∧ d'.change = .changed c' ∧ SameReport c c') ∨
   (∃ c c' w, d.change = .warning c w ∧ d'.change = .warning c' w ∧ SameReport c c'))

end Spec

open Spec Std Term

/-! ### C102 -/

theorem corner_exactOf {m g : CompareMethod} (h : ExactOf m g) (d : Dimension) (old new : Option SimpleExtrinsic) (s : SimpleScope) :
    Corner d m old new s ↔ Corner d g old new s := by
  cases h <;> exact Iff.rfl

theorem corner_covers {w m : CompareMethod} (h : Covers w m) {d : Dimension} {old new : Option SimpleExtrinsic} {s : SimpleScope}
    (hc : Corner d m old new s) : Corner d w old new s := by
  obtain ⟨h0, h1, h2, h3, h4⟩ := hc
  refine ⟨h0, h1, h2, fun x hx => ?_, h4⟩
  obtain ⟨n, hn, hl⟩ := h3 x hx
  refine ⟨n, hn, ?_⟩
  cases h
  · exact .inl (hl.elim id id)
  · exact .inr (hl.elim id id)
  · exact .inl (hl.elim id id)
  · exact .inr (hl.elim id id)
  · exact .inr (hl.elim id id)
  · exact hl

theorem not_refused_guess {g m : CompareMethod} (hg : ¬ Exact g) {old new : Option SimpleExtrinsic} (h : ¬ Refused m old new) :
    ¬ Refused g old new := by
  rintro (hr | ⟨he, _⟩)
  · exact h (.inl hr)
  · exact hg he

theorem not_refused_covers {w m : CompareMethod} (hw : Covers w m) {old new : Option SimpleExtrinsic} (h : ¬ Refused w old new) :
    ¬ Refused m old new := by
  cases hw with
  | exactExact =>
    rintro (hr | ⟨_, hr⟩)
    · exact h (.inl hr)
    · exact h (.inr ⟨.inl rfl, hr⟩)
  | _ => exact not_refused_guess (by rintro (h | h) <;> cases h) h

theorem cmp_antisymm_scope {s t : SimpleScope} (h1 : s = t ∨ SimpleScope.cmp s t = .lt) (h2 : t = s ∨ SimpleScope.cmp t s = .lt) :
    s = t := by
  rcases h1 with h1 | h1
  · exact h1
  rcases h2 with h2 | h2
  · exact h2.symm
  rw [OrientedCmp.gt_of_lt h1] at h2
  cases h2

/-- Two methods that look at the same points report the same. -/
theorem same_of_corners {b : Build} {ho ho' : HashOrder} {old new : Option SimpleExtrinsic} {p p' : CompareParams} {r r' : TermChange}
    (hu : p'.unit = p.unit)
    (hc : ∀ s, Corner p.unit p.method old new s ↔ Corner p.unit p'.method old new s)
    (h : compareExtrinsics b ho old new p = .ok r) (h' : compareExtrinsics b ho' old new p' = .ok r') : SameReport r r' := by
  obtain ⟨c, ca, _⟩ := C25_reported_is_corner b ho old new p r h
  obtain ⟨c', ca', _⟩ := C25_reported_is_corner b ho' old new p' r' h'
  rw [hu] at c'
  have hs : r.scope = r'.scope := by
    by_cases hone : old = none ∨ new = none
    · have h1 := C25_single_version_first b ho old new hone p r h _ ((hc _).2 c')
      have h2 := C25_single_version_first b ho' old new hone p' r' h' r.scope (by rw [hu]; exact (hc _).1 c)
      refine cmp_antisymm_scope (h1.imp Eq.symm id) (h2.imp Eq.symm id)
    · cases old with
      | none => exact absurd (.inl rfl) hone
      | some o =>
        cases new with
        | none => exact absurd (.inr rfl) hone
        | some n =>
          obtain ⟨q, hq, hm⟩ := C25_maximal b ho o n p r h _ ((hc _).2 c')
          obtain ⟨q', hq', hm'⟩ := C25_maximal b ho' o n p' r' h' r.scope (by rw [hu]; exact (hc _).1 c)
          have e1 := (changeAt_unique hq ca').2.2
          have e2 := (changeAt_unique hq' ca).2.2
          rw [e1] at hm
          rw [e2] at hm'
          rcases hm with hm | ⟨hm1, hm2⟩
          · rcases hm' with hm' | ⟨hm1', _⟩ <;> omega
          · rcases hm' with hm' | ⟨hm1', hm2'⟩
            · omega
            · exact cmp_antisymm_scope hm2' hm2
  obtain ⟨e1, e2, e3⟩ := changeAt_unique ca (by rw [hs]; exact ca')
  obtain ⟨_, _, _, _, l1, l2, _, hx, _, _⟩ := compare_ok h
  obtain ⟨_, _, _, _, l1', l2', _, hx', _, _⟩ := compare_ok h'
  obtain ⟨_, ov, nv, er⟩ := hx r (by simp)
  obtain ⟨_, ov', nv', er'⟩ := hx' r' (by simp)
  refine ⟨?_, e1, ?_, e2, hs, e3, ?_⟩ <;> (rw [er, er', hu]; rfl)

/-- C102: whatever an exact method reports, the guessing method of the same kind reports too. -/
theorem C102_exact (b : Build) (ho ho' : HashOrder) (old new : Option SimpleExtrinsic) (p : CompareParams) (m g : CompareMethod)
    (hm : ExactOf m g) (r : TermChange) (h : compareExtrinsics b ho old new (withMethod p m) = .ok r) :
    ∃ r', compareExtrinsics b ho' old new (withMethod p g) = .ok r' ∧ SameReport r r' ∧ r'.method = g := by
  obtain ⟨hn, _⟩ := compare_ok h
  obtain ⟨r', h'⟩ := compare_exists (b := b) (ho := ho') (params := withMethod p g) (compareExtrinsics_not_none h)
    (by refine not_refused_guess ?_ hn
        cases hm <;> rintro (h | h) <;> cases h)
    fun s hc e he => compare_ok_eval h s ((corner_exactOf hm _ _ _ s).2 hc) e he
  exact ⟨r', h', same_of_corners (p := withMethod p m) (p' := withMethod p g) rfl (corner_exactOf hm _ _ _) h h', (C25_reported_is_corner _ _ _ _ _ _ h').2.2⟩

/-- C102: conversely an exact method reports what the guessing method reports, if no component had to be guessed. -/
theorem C102_exact_back (b : Build) (ho ho' : HashOrder) (old new : Option SimpleExtrinsic) (p : CompareParams) (m g : CompareMethod)
    (hm : ExactOf m g) (hu : ∀ x, Component old new x → Unambiguous old new x)
    (r : TermChange) (h : compareExtrinsics b ho old new (withMethod p g) = .ok r) :
    ∃ r', compareExtrinsics b ho' old new (withMethod p m) = .ok r' ∧ SameReport r r' ∧ r'.method = m := by
  obtain ⟨hn, _⟩ := compare_ok h
  obtain ⟨r', h'⟩ := compare_exists (b := b) (ho := ho') (params := withMethod p m) (compareExtrinsics_not_none h)
    (by rintro (hr | ⟨_, x, hx, hx'⟩)
        · exact hn (.inl hr)
        · exact hx' (hu x hx))
    fun s hc e he => compare_ok_eval h s ((corner_exactOf hm _ _ _ s).1 hc) e he
  exact ⟨r', h', same_of_corners (p := withMethod p g) (p' := withMethod p m) rfl (fun s => (corner_exactOf hm _ _ _ s).symm) h h', (C25_reported_is_corner _ _ _ _ _ _ h').2.2⟩

/-- C102: for a call present in both versions, a worst-case method never reports a smaller change than the methods that look at one
of its points only, and these report something wherever it does. -/
theorem C102_worst (b : Build) (ho ho' : HashOrder) (old new : SimpleExtrinsic) (p : CompareParams) (w m : CompareMethod)
    (hw : Covers w m) (r : TermChange) (h : compareExtrinsics b ho (some old) (some new) (withMethod p w) = .ok r) :
    ∃ r', compareExtrinsics b ho' (some old) (some new) (withMethod p m) = .ok r' ∧ r'.change = r.change
      ∧ rank r'.percent ≤ rank r.percent := by
  obtain ⟨hn, _⟩ := compare_ok h
  obtain ⟨r', h'⟩ := compare_exists (b := b) (ho := ho') (params := withMethod p m) (compareExtrinsics_not_none h)
    (not_refused_covers hw hn) fun s hc e he => compare_ok_eval h s (corner_covers hw hc) e he
  refine ⟨r', h', by rw [reported_kind h', reported_kind h]; rfl, ?_⟩
  obtain ⟨c', ca', _⟩ := C25_reported_is_corner b ho' _ _ _ r' h'
  obtain ⟨q, hq, hm⟩ := C25_maximal b ho old new _ r h _ (corner_covers hw c')
  rw [(changeAt_unique hq ca').2.2] at hm
  rcases hm with hm | ⟨hm, _⟩ <;> omega

theorem corner_noRoom {d : Dimension} {old new : Option SimpleExtrinsic} (h : NoRoom old new) (m m' : CompareMethod) {s : SimpleScope}
    (hc : Corner d m old new s) : Corner d m' old new s := by
  obtain ⟨h0, h1, h2, h3, h4⟩ := hc
  refine ⟨h0, h1, h2, fun x hx => ?_, h4⟩
  obtain ⟨k, hk, hk'⟩ := h x hx
  obtain ⟨n, hn, hl⟩ := h3 x hx
  have e : n = k := by
    rcases hl with hl | hl <;> cases m <;> first | exact minInst_unique hl hk | exact maxInst_unique hl hk'
  subst e
  refine ⟨n, hn, .inl ?_⟩
  cases m' <;> first | exact hk | exact hk'

/-- C102: for a call whose components have no room (in particular for a call without components), all methods that answer give the
same answer. -/
theorem C102_no_room (b : Build) (ho ho' : HashOrder) (old new : Option SimpleExtrinsic) (hroom : NoRoom old new) (p : CompareParams)
    (m m' : CompareMethod) (hm : ¬ Exact m' ∨ ∀ x, Component old new x → Unambiguous old new x)
    (r : TermChange) (h : compareExtrinsics b ho old new (withMethod p m) = .ok r) :
    ∃ r', compareExtrinsics b ho' old new (withMethod p m') = .ok r' ∧ SameReport r r' ∧ r'.method = m' := by
  obtain ⟨hn, _⟩ := compare_ok h
  obtain ⟨r', h'⟩ := compare_exists (b := b) (ho := ho') (params := withMethod p m') (compareExtrinsics_not_none h)
    (by rintro (hr | ⟨he, x, hx, hx'⟩)
        · exact hn (.inl hr)
        · exact hm.elim (fun hm => hm he) fun hm => hx' (hm x hx))
    fun s hc e he => compare_ok_eval h s (corner_noRoom hroom _ _ hc) e he
  exact ⟨r', h', same_of_corners (p := withMethod p m) (p' := withMethod p m') rfl (fun s => ⟨corner_noRoom hroom _ _, corner_noRoom hroom _ _⟩) h h',
    (C25_reported_is_corner _ _ _ _ _ _ h').2.2⟩

/-- C102: a call without components is reported alike by all five methods. -/
theorem C102_constant (b : Build) (ho ho' : HashOrder) (old new : Option SimpleExtrinsic) (hnone : ∀ x, ¬ Component old new x)
    (p : CompareParams) (m m' : CompareMethod) (r : TermChange) (h : compareExtrinsics b ho old new (withMethod p m) = .ok r) :
    ∃ r', compareExtrinsics b ho' old new (withMethod p m') = .ok r' ∧ SameReport r r' ∧ r'.method = m' :=
  C102_no_room b ho ho' old new (fun x hx => absurd hx (hnone x)) p m m' (.inr fun x hx => absurd hx (hnone x)) r h

/-- A point is determined by the numbers of the components. -/
theorem corner_eq {d : Dimension} {m m' : CompareMethod} {old new : Option SimpleExtrinsic} {s t : SimpleScope}
    (hs : Corner d m old new s) (ht : Corner d m' old new t)
    (h : ∀ x, Component old new x → binding s x = binding t x) : s = t := by
  apply BMap.ext hs.1 ht.1
  intro x
  rw [← binding_eq_get, ← binding_eq_get]
  by_cases hx : Component old new x
  · exact h x hx
  by_cases hr : x = str% "READ"
  · subst hr; exact hs.2.1.trans ht.2.1.symm
  by_cases hw : x = str% "WRITE"
  · subst hw; exact hs.2.2.1.trans ht.2.2.1.symm
  have e : ∀ {m : CompareMethod} {s : SimpleScope}, Corner d m old new s → binding s x = none := fun hs => by
    rename_i s
    cases hb : binding s x with
    | none => rfl
    | some u =>
      rcases hs.2.2.2.2 x u hb with h | h | h
      · exact absurd h hr
      · exact absurd h hw
      · exact absurd h hx
  exact (e hs).trans (e ht).symm

theorem min_le_max {old new : Option SimpleExtrinsic} (hwf : ∀ x r, Annotated old new x r → r.min ≤ r.max) {x : Str} {lo hi : Nat}
    (hl : MinInst old new x lo) (hh : MaxInst old new x hi) : lo ≤ hi := by
  rcases hl with ⟨h1, h2⟩ | ⟨⟨r, h1, _⟩, h3⟩
  · omega
  · rcases hh with ⟨h1', _⟩ | ⟨_, h3'⟩
    · exact absurd h1 (h1' r)
    · have := h3 r h1
      have := hwf x r h1
      have := h3' r h1
      omega

/-- C102: for an added or removed call a worst-case method reports what Base reports: the *smallest* weight of the call. -/
theorem C102_added (b : Build) (ho ho' : HashOrder) (old new : Option SimpleExtrinsic) (hone : old = none ∨ new = none)
    (hwf : ∀ x r, Annotated old new x r → r.min ≤ r.max) (p : CompareParams)
    (w : CompareMethod) (hw : Covers w .base) (r : TermChange)
    (h : compareExtrinsics b ho old new (withMethod p w) = .ok r) :
    ∃ r', compareExtrinsics b ho' old new (withMethod p .base) = .ok r' ∧ SameReport r r' := by
  obtain ⟨hn, _⟩ := compare_ok h
  obtain ⟨r', h'⟩ := compare_exists (b := b) (ho := ho') (params := withMethod p .base) (compareExtrinsics_not_none h)
    (not_refused_covers hw hn) fun s hc e he => compare_ok_eval h s (corner_covers hw hc) e he
  refine ⟨r', h', ?_⟩
  obtain ⟨c, ca, _⟩ := C25_reported_is_corner b ho old new _ r h
  obtain ⟨c', ca', _⟩ := C25_reported_is_corner b ho' old new _ r' h'
  have hs : r.scope = r'.scope := by
    refine corner_eq c c' fun x hx => ?_
    obtain ⟨lo, hlo, hl⟩ := c'.2.2.2.1 x hx
    obtain ⟨n, hn', hl'⟩ := c.2.2.2.1 x hx
    have hmin : MinInst old new x lo := hl.elim id id
    have hlow : IsLow w old new x lo := by cases hw <;> exact hmin
    rw [hlo]
    rcases hl' with hl' | hl'
    · rw [hn', low_unique (m := w) hl' hlow]
    · exact C25_single_version_low b ho old new hone _ r h x hx lo n hlow hl'
        (min_le_max hwf hmin (by cases hw <;> exact hl'))
  obtain ⟨e1, e2, e3⟩ := changeAt_unique ca (by rw [hs]; exact ca')
  obtain ⟨_, _, _, _, l1, l2, _, hx, _, _⟩ := compare_ok h
  obtain ⟨_, _, _, _, l1', l2', _, hx', _, _⟩ := compare_ok h'
  obtain ⟨_, ov, nv, er⟩ := hx r (by simp)
  obtain ⟨_, ov', nv', er'⟩ := hx' r' (by simp)
  refine ⟨?_, e1, ?_, e2, hs, e3, ?_⟩ <;> (rw [er, er']; rfl)

/-- C102, for whole reports: every row of a report by an exact method that is not an error is also in the report by the guessing method
of the same kind. -/
theorem C102_report (b : Build) (ho ho' : HashOrder) (rx : RegexEngine) (olds news : List ChromaticExtrinsic) (p : CompareParams)
    (filter : FilterParams) (m g : CompareMethod) (hm : ExactOf m g) (diff diff' : List ExtrinsicDiff)
    (h : compareFiles b ho rx olds news (withMethod p m) filter = .ok diff)
    (h' : compareFiles b ho' rx olds news (withMethod p g) filter = .ok diff')
    (d : ExtrinsicDiff) (hd : d ∈ diff) (hok : ∀ e, d.change ≠ .failed e) : ∃ d' ∈ diff', SameRow d d' := by
  have hp := ((C32_exactly_once b ho rx olds news _ filter diff h).2 d.file d.name).1 ⟨d, hd, rfl, rfl⟩
  obtain ⟨d', hd', e1, e2⟩ := ((C32_exactly_once b ho' rx olds news _ filter diff' h').2 d.file d.name).2 hp
  refine ⟨d', hd', e1, e2, ?_⟩
  obtain ⟨_, _, _, hf⟩ := compareFiles_ok h
  obtain ⟨_, _, _, hf'⟩ := compareFiles_ok h'
  obtain ⟨q, _, he⟩ := forall₂_mem_right hf hd
  obtain ⟨q', _, he'⟩ := forall₂_mem_right hf' hd'
  obtain ⟨rfl, hc⟩ := entry_name he
  obtain ⟨rfl, hc'⟩ := entry_name he'
  dsimp only at hc hc'
  rw [e1, e2] at hc'
  unfold diffOne at hc hc'
  simp only [show (withMethod p m).unit = p.unit from rfl] at hc
  simp only [show (withMethod p g).unit = p.unit from rfl] at hc'
  cases hx : compareExtrinsics b ho (findExtrinsic (olds.map (inDim p.unit)) d.file d.name)
    (findExtrinsic (news.map (inDim p.unit)) d.file d.name) (withMethod p m) with
  | err e => rw [hx] at hc; injection hc with hc; exact absurd hc.symm (hok e)
  | panic => rw [hx] at hc; cases hc
  | diverge => rw [hx] at hc; cases hc
  | ok c =>
    obtain ⟨c', hx', hsame, _⟩ := C102_exact b ho ho' _ _ p m g hm c hx
    rw [hx] at hc
    rw [hx'] at hc'
    dsimp only at hc hc'
    generalize (findExtrinsic (news.map (inDim p.unit)) d.file d.name).or
      (findExtrinsic (olds.map (inDim p.unit)) d.file d.name) = w at hc hc'
    cases w with
    | none => cases hc
    | some x =>
      dsimp only at hc hc'
      cases hs : sanityCheckTerm x.term with
      | ok u =>
        rw [hs] at hc hc'
        injection hc with hc
        injection hc' with hc'
        exact .inl ⟨c, c', hc.symm, hc'.symm, hsame⟩
      | err e =>
        rw [hs] at hc hc'
        injection hc with hc
        injection hc' with hc'
        exact .inr ⟨c, c', _, hc.symm, hc'.symm, hsame⟩
      | panic => rw [hs] at hc; cases hc
      | diverge => rw [hs] at hc; cases hc

/-- The two values of a comparison. -/
def exValues (r : Res TermChange) : Res (Option Nat × Option Nat) := r.map fun r => (r.oldV, r.newV)

/-- An example call `c + k * n` whose component has the range `[0, hi]`. -/
def exRanged (c k hi : Nat) : SimpleExtrinsic :=
  { name := str% "f", pallet := str% "p", term := .add (.value c) (.mul (.value k) (.var (str% "n"))),
    compRanges := some [(str% "n", ⟨0, hi⟩)] }

/-- The values and the percentage that each method reports for the example call `1000 + 10 * n` that becomes `900 + 20 * n`, with `n`
annotated as `[0, 50]`: the worst case is the asymptotic one. -/
example : (([.base, .guessWorst, .exactWorst, .exactAsymptotic, .asymptotic] : List CompareMethod).map fun m =>
      (compareExtrinsics .release idOrder (some (exRanged 1000 10 50)) (some (exRanged 900 20 50)) (exParams m .time)).map
        fun r => (r.oldV, r.newV, rank r.percent))
    = [.ok (some 1000, some 900, -10000), .ok (some 1500, some 1900, 26666), .ok (some 1500, some 1900, 26666),
       .ok (some 1500, some 1900, 26666), .ok (some 1500, some 1900, 26666)] := by
  decide +kernel

/-- The same call without its annotation: the exact methods do not answer. -/
example : (([.base, .guessWorst, .exactWorst, .exactAsymptotic, .asymptotic] : List CompareMethod).map fun m =>
      (compareExtrinsics .release idOrder (some { exRanged 1000 10 50 with compRanges := none })
        (some { exRanged 900 20 50 with compRanges := none }) (exParams m .time)).map fun r => (r.oldV, r.newV, rank r.percent))
    = [.ok (some 1000, some 900, -10000), .ok (some 2000, some 2900, 45000),
       .err (str% "No range for component n of call p::f - use Guess instead!"),
       .err (str% "No range for component n of call p::f - use Guess instead!"), .ok (some 2000, some 2900, 45000)] := by
  decide +kernel

/-- An added call: the worst-case methods show the value of Base. -/
example : (([.base, .guessWorst, .exactWorst, .asymptotic] : List CompareMethod).map fun m =>
      exValues (compareExtrinsics .release idOrder none (some (exRanged 900 20 50)) (exParams m .time)))
    = [.ok (none, some 900), .ok (none, some 900), .ok (none, some 900), .ok (none, some 1900)] := by
  decide +kernel

/-! ### C103 -/

namespace Spec

/-- A method that looks at one point only. -/
def OnePoint (m : CompareMethod) : Prop := m = .base ∨ m = .asymptotic ∨ m = .exactAsymptotic

/-- The range with which a version annotates a component. -/
def annotation (e : SimpleExtrinsic) (x : Str) : Option ComponentRange :=
  match e.compRanges with
  | none => none
  | some m => binding m x

/-- The versions annotate every component alike. -/
def SameRanges (e f : SimpleExtrinsic) : Prop := ∀ x, annotation e x = annotation f x

end Spec

theorem annotated_ranges {e f : SimpleExtrinsic} {x : Str} {r : ComponentRange} :
    Annotated (some e) (some f) x r ↔ annotation e x = some r ∨ annotation f x = some r := by
  have key : ∀ g : SimpleExtrinsic, (∃ m, g.compRanges = some m ∧ binding m x = some r) ↔ annotation g x = some r := by
    intro g
    unfold annotation
    cases g.compRanges with
    | none => simp
    | some m => simp
  rw [← key, ← key]
  constructor
  · rintro ⟨g, m, h | h, h1, h2⟩ <;> injection h with h <;> subst h
    · exact .inl ⟨m, h1, h2⟩
    · exact .inr ⟨m, h1, h2⟩
  · rintro (⟨m, h1, h2⟩ | ⟨m, h1, h2⟩)
    · exact ⟨e, m, .inl rfl, h1, h2⟩
    · exact ⟨f, m, .inr rfl, h1, h2⟩

theorem eval_same {b : Build} {s s' : SimpleScope} {t : SimpleTerm}
    (h : ∀ x, Occurs x t → ∃ n, binding s x = some (.scalar n) ∧ binding s' x = some (.scalar n)) : eval b t s = eval b t s' := by
  induction t with
  | value => rw [eval_value, eval_value]
  | scalar => rw [eval_scalar, eval_scalar]
  | var x =>
    obtain ⟨n, h1, h2⟩ := h x .here
    rw [eval_var, eval_var, h1, h2]
    simp only [eval_scalar]
  | add l r hl hr => rw [eval_add, eval_add, hl fun x hx => h x (.addL hx), hr fun x hx => h x (.addR hx)]
  | mul l r hl hr => rw [eval_mul, eval_mul, hl fun x hx => h x (.mulL hx), hr fun x hx => h x (.mulR hx)]

/-- Two comparisons of which `e` is a part give its variables the same numbers. -/
theorem same_point {d : Dimension} {m : CompareMethod} (hm : OnePoint m) {e o n o' n' : SimpleExtrinsic} {s s' : SimpleScope}
    (hs : Corner d m (some o) (some n) s) (hs' : Corner d m (some o') (some n') s') (he : e = o ∨ e = n) (he' : e = o' ∨ e = n')
    (ha : ∀ x r, Annotated (some o) (some n) x r ↔ Annotated (some o') (some n') x r) {x : Str} (hx : Occurs x e.term) :
    ∃ k, binding s x = some (.scalar k) ∧ binding s' x = some (.scalar k) := by
  by_cases hr : x = str% "READ"
  · subst hr; exact ⟨_, hs.2.1, hs'.2.1⟩
  by_cases hw : x = str% "WRITE"
  · subst hw; exact ⟨_, hs.2.2.1, hs'.2.2.1⟩
  have hc : Component (some o) (some n) x := ⟨⟨e, by rcases he with rfl | rfl <;> simp, hx⟩, hr, hw⟩
  have hc' : Component (some o') (some n') x := ⟨⟨e, by rcases he' with rfl | rfl <;> simp, hx⟩, hr, hw⟩
  obtain ⟨k, hk, hl⟩ := hs.2.2.2.1 x hc
  obtain ⟨k', hk', hl'⟩ := hs'.2.2.2.1 x hc'
  have hmin : ∀ k, MinInst (some o) (some n) x k ↔ MinInst (some o') (some n') x k := by intro k; simp only [MinInst, ha]
  have hmax : ∀ k, MaxInst (some o) (some n) x k ↔ MaxInst (some o') (some n') x k := by intro k; simp only [MaxInst, ha]
  have e : k = k' := by
    rcases hm with rfl | rfl | rfl
    · exact minInst_unique ((hmin k).1 (hl.elim id id)) (hl'.elim id id)
    · exact maxInst_unique ((hmax k).1 (hl.elim id id)) (hl'.elim id id)
    · exact maxInst_unique ((hmax k).1 (hl.elim id id)) (hl'.elim id id)
  exact ⟨k, hk, by rw [hk', e]⟩

/-- C103: three versions `A`, `B`, `C` of a call with the same annotations, compared with a method that looks at one point: the
comparison of `A` and `C` has the old value of `A` against `B` and the new value of `B` against `C`, and these two meet in `B`. -/
theorem C103_chain (b : Build) (ho1 ho2 ho3 : HashOrder) (A B C : SimpleExtrinsic) (hAB : SameRanges A B) (hBC : SameRanges B C)
    (p : CompareParams) (hm : OnePoint p.method) (r1 r2 r3 : TermChange)
    (h1 : compareExtrinsics b ho1 (some A) (some B) p = .ok r1)
    (h2 : compareExtrinsics b ho2 (some B) (some C) p = .ok r2)
    (h3 : compareExtrinsics b ho3 (some A) (some C) p = .ok r3) :
    ∃ x y z : Nat, r1.oldV = some x ∧ r1.newV = some y ∧ r2.oldV = some y ∧ r2.newV = some z ∧ r3.oldV = some x ∧ r3.newV = some z
      ∧ r1.percent = percent x y ∧ r2.percent = percent y z ∧ r3.percent = percent x z := by
  obtain ⟨c1, ⟨_, ⟨x1, ox1, ex1⟩, ⟨y1, oy1, ey1⟩, p1⟩, _⟩ := C25_reported_is_corner b ho1 _ _ p r1 h1
  obtain ⟨c2, ⟨_, ⟨y2, oy2, ey2⟩, ⟨z2, oz2, ez2⟩, p2⟩, _⟩ := C25_reported_is_corner b ho2 _ _ p r2 h2
  obtain ⟨c3, ⟨_, ⟨x3, ox3, ex3⟩, ⟨z3, oz3, ez3⟩, p3⟩, _⟩ := C25_reported_is_corner b ho3 _ _ p r3 h3
  have a12 : ∀ x r, Annotated (some A) (some B) x r ↔ Annotated (some B) (some C) x r := fun x r => by
    rw [annotated_ranges, annotated_ranges, hAB x, hBC x]
  have a13 : ∀ x r, Annotated (some A) (some B) x r ↔ Annotated (some A) (some C) x r := fun x r => by
    rw [annotated_ranges, annotated_ranges, hAB x, hBC x]
  have a23 : ∀ x r, Annotated (some B) (some C) x r ↔ Annotated (some A) (some C) x r := fun x r => by
    rw [annotated_ranges, annotated_ranges, hAB x, hBC x]
  have ey : y1 = y2 := by
    rw [eval_same fun x hx => same_point hm c1 c2 (.inr rfl) (.inl rfl) a12 hx, ey2] at ey1
    injection ey1 with ey1; exact ey1.symm
  have ex : x1 = x3 := by
    rw [eval_same fun x hx => same_point hm c1 c3 (.inl rfl) (.inl rfl) a13 hx, ex3] at ex1
    injection ex1 with ex1; exact ex1.symm
  have ez : z2 = z3 := by
    rw [eval_same fun x hx => same_point hm c2 c3 (.inr rfl) (.inr rfl) a23 hx, ez3] at ez2
    injection ez2 with ez2; exact ez2.symm
  subst ex ey ez
  rw [ox1, oy1] at p1
  rw [oy2, oz2] at p2
  rw [ox3, oz3] at p3
  exact ⟨x1, y1, z2, ox1, oy1, oy2, oz2, ox3, oz3, p1, p2, p3⟩

/-- C103: if neither step changes the equation, nor does the whole. -/
theorem C103_unchanged (b : Build) (ho1 ho2 ho3 : HashOrder) (A B C : SimpleExtrinsic) (p : CompareParams) (r1 r2 r3 : TermChange)
    (h1 : compareExtrinsics b ho1 (some A) (some B) p = .ok r1)
    (h2 : compareExtrinsics b ho2 (some B) (some C) p = .ok r2)
    (h3 : compareExtrinsics b ho3 (some A) (some C) p = .ok r3)
    (u1 : r1.change = .unchanged) (u2 : r2.change = .unchanged) : r3.change = .unchanged := by
  obtain ⟨o, n, e1, e2, s1⟩ := (C27_kinds b ho1 _ _ p r1 h1).2.2.1.1 u1
  obtain ⟨o', n', e1', e2', s2⟩ := (C27_kinds b ho2 _ _ p r2 h2).2.2.1.1 u2
  injection e1 with e1; injection e2 with e2; injection e1' with e1'; injection e2' with e2'
  subst e1 e2 e1' e2'
  exact (C27_kinds b ho3 _ _ p r3 h3).2.2.1.2 ⟨_, _, rfl, rfl, s1.trans s2⟩

/-- Three versions with the same ranges chain. -/
example : SameRanges (exRanged 1000 10 50) (exRanged 1000 20 50) ∧ SameRanges (exRanged 1000 20 50) (exRanged 2000 20 50)
    ∧ exValues (compareExtrinsics .release idOrder (some (exRanged 1000 10 50)) (some (exRanged 1000 20 50)) (exParams .asymptotic .time))
      = .ok (some 1500, some 2000)
    ∧ exValues (compareExtrinsics .release idOrder (some (exRanged 1000 20 50)) (some (exRanged 2000 20 50)) (exParams .asymptotic .time))
      = .ok (some 2000, some 3000)
    ∧ exValues (compareExtrinsics .release idOrder (some (exRanged 1000 10 50)) (some (exRanged 2000 20 50)) (exParams .asymptotic .time))
      = .ok (some 1500, some 3000) := by
  refine ⟨fun _ => rfl, fun _ => rfl, ?_⟩
  decide +kernel

/-- C103: with ranges that change the value of the middle version is not the same in both comparisons. -/
theorem C103_false_ranges :
    exValues (compareExtrinsics .release idOrder (some (exRanged 1000 10 50)) (some (exRanged 1000 10 100)) (exParams .asymptotic .time))
      = .ok (some 2000, some 2000)
    ∧ exValues (compareExtrinsics .release idOrder (some (exRanged 1000 10 100)) (some (exRanged 1000 10 200)) (exParams .asymptotic .time))
      = .ok (some 3000, some 3000) := by
  decide +kernel

/-- C103: nor with a worst-case method, although the ranges are the same: each step looks for its own worst point. -/
theorem C103_false_worst :
    SameRanges (exRanged 1000 10 100) (exRanged 1000 20 100) ∧ SameRanges (exRanged 1000 20 100) (exRanged 2000 20 100)
    ∧ exValues (compareExtrinsics .release idOrder (some (exRanged 1000 10 100)) (some (exRanged 1000 20 100)) (exParams .exactWorst .time))
      = .ok (some 2000, some 3000)
    ∧ exValues (compareExtrinsics .release idOrder (some (exRanged 1000 20 100)) (some (exRanged 2000 20 100)) (exParams .exactWorst .time))
      = .ok (some 1000, some 2000) := by
  refine ⟨fun _ => rfl, fun _ => rfl, ?_⟩
  decide +kernel

/-- A row of a report. -/
def exStepRow (r : TermChange) : ExtrinsicDiff := ⟨str% "f", str% "p", .changed r⟩

/-- C103: thresholds do not chain: two steps of 4 % each are below a threshold of 5 % and are not shown, although the whole change
is 8.1 %. -/
theorem C103_false_threshold :
    (([(1000, 1040), (1040, 1081), (1000, 1081)] : List (Nat × Nat)).map fun q =>
      (compareExtrinsics .release idOrder (some (exCall (.value q.1))) (some (exCall (.value q.2))) (exParams .base .time)).map
        fun r => keepChange ⟨F64.rnd 5, none, none, none⟩ (exStepRow r))
    = [.ok false, .ok false, .ok true] := by
  decide +kernel

end Swc
