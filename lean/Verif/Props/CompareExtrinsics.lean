/-
C21 (results), C25–C31: the comparison of two versions of a call (`core/src/lib.rs:491-569`).
-/
import Verif.Lemmas.CompareExt

namespace Swc

namespace Spec

/-- `v` is the value of the version `o` at the point `s` (its meaning is C01); no value for a missing version. -/
def ValueAt (b : Build) (o : Option SimpleExtrinsic) (s : SimpleScope) (v : Option Nat) : Prop :=
  match o with
  | none => v = none
  | some e => ∃ n, v = some n ∧ Term.eval b e.term s = .ok n

/-- The report `r` is the comparison of the two equations at the point `s`: both values are those of the equations at that point
(their meaning is C01) and the percentage is the one of these two numbers. -/
def ChangeAt (b : Build) (old new : Option SimpleExtrinsic) (s : SimpleScope) (r : TermChange) : Prop :=
  r.scope = s ∧
  ValueAt b old s r.oldV ∧ ValueAt b new s r.newV ∧
  r.percent = percent (r.oldV.getD 0) (r.newV.getD 0)

/-- The mirrored kind of change. -/
def mirror : RelativeChange → RelativeChange
  | .added => .removed
  | .removed => .added
  | .changed => .changed
  | .unchanged => .unchanged

end Spec

open Spec Std Term

/-! ### Combining the results -/

theorem kindOf_cases (old new : Option SimpleTerm) :
    ((kindOf old new).isChangedOrUnchanged = true ∧ (kindOf old new).isAddedOrRemoved = false) ∨
    ((kindOf old new).isChangedOrUnchanged = false ∧ (kindOf old new).isAddedOrRemoved = true) := by
  cases kindOf old new <;> simp [RelativeChange.isChangedOrUnchanged, RelativeChange.isAddedOrRemoved]

theorem kindOf_some (t u : SimpleTerm) :
    kindOf (some t) (some u) = if Term.rustEq t u = true then .unchanged else .changed := rfl

/-- `max_by` with a key. -/
theorem maxBy_key {α : Type} {cmp : α → α → Ordering} {f : α → ℤ} {l : List α}
    (hc : ∀ x ∈ l, ∀ y ∈ l, cmp x y = compare (f x) (f y)) (hne : l ≠ []) :
    ∃ l1 m l2, l = l1 ++ m :: l2 ∧ maxBy cmp l = some m ∧ (∀ x ∈ l1, f x ≤ f m) ∧ (∀ x ∈ l2, f x < f m) := by
  have key : ∀ (P : α → Prop), (∀ u v, P u → P v → cmp u v = compare (f u) (f v)) → ∀ (l pre : List α) (x : α),
      P x → (∀ u ∈ l, P u) → (∀ u ∈ pre, f u ≤ f x) → ∀ mid : List α, (∀ u ∈ mid, f u < f x) →
      ∃ l1 m l2, pre ++ x :: (mid ++ l) = l1 ++ m :: l2 ∧ l.foldl (fun m y => if cmp m y = .gt then m else y) x = m ∧
        (∀ u ∈ l1, f u ≤ f m) ∧ (∀ u ∈ l2, f u < f m) := by
    intro P hk l
    induction l with
    | nil =>
      intro pre x _ _ hp mid hm
      exact ⟨pre, x, mid, by simp, rfl, hp, hm⟩
    | cons y l ih =>
      intro pre x hx hl hp mid hm
      rw [List.foldl_cons]
      have hxy := hk x y hx (hl y List.mem_cons_self)
      by_cases hg : f y < f x
      · have hgt : cmp x y = .gt := by rw [hxy, compare_gt_iff_gt]; exact hg
        rw [if_pos hgt]
        obtain ⟨l1, m, l2, e, h1, h2, h3⟩ := ih pre x hx (fun u hu => hl u (List.mem_cons_of_mem _ hu)) hp (mid ++ [y]) (by
              intro u hu
              rcases List.mem_append.1 hu with h | h
              · exact hm u h
              · rw [List.mem_singleton.1 h]; exact hg)
        exact ⟨l1, m, l2, by rw [← e]; simp, h1, h2, h3⟩
      · have hgt : ¬ cmp x y = .gt := by rw [hxy, compare_gt_iff_gt]; exact hg
        rw [if_neg hgt]
        have hle : f x ≤ f y := by omega
        obtain ⟨l1, m, l2, e, h1, h2, h3⟩ := ih (pre ++ x :: mid) y (hl y List.mem_cons_self)
            (fun u hu => hl u (List.mem_cons_of_mem _ hu)) (by
              intro u hu
              rcases List.mem_append.1 hu with h | h
              · have := hp u h; omega
              · rcases List.mem_cons.1 h with h | h
                · rw [h]; exact hle
                · have := hm u h; omega) [] (by simp)
        exact ⟨l1, m, l2, by rw [← e]; simp, h1, h2, h3⟩
  cases l with
  | nil => exact absurd rfl hne
  | cons x l =>
    obtain ⟨l1, m, l2, e, h1, h2, h3⟩ := key (· ∈ x :: l) (fun u v hu hv => hc u hu v hv) l [] x List.mem_cons_self
      (fun u hu => List.mem_cons_of_mem _ hu) (by simp) [] (by simp)
    exact ⟨l1, m, l2, by simpa using e, by rw [maxBy, h1], h2, h3⟩

/-- Rank of a change among changes of the same kind. -/
def keyOf (r : TermChange) : ℤ := rank r.percent

theorem cmp_same_kind {x y : TermChange} (h : x.change = y.change) : TermChange.cmp x y = compare (keyOf x) (keyOf y) := by
  unfold TermChange.cmp keyOf rank
  rw [h, cmpNat_eq.2 rfl]
  rfl

theorem combine_spec {results : List TermChange} (hne : results ≠ []) {k : RelativeChange} (hk : ∀ r ∈ results, r.change = k) :
    ∃ l1 r l2, results = l1 ++ r :: l2 ∧ combineResults results = .ok r ∧
      (k.isAddedOrRemoved = true → l1 = []) ∧
      (k.isAddedOrRemoved = false → (∀ x ∈ l1, keyOf x ≤ keyOf r) ∧ (∀ x ∈ l2, keyOf x < keyOf r)) := by
  unfold combineResults
  cases hkk : k.isAddedOrRemoved with
  | true =>
    rw [if_pos (by rw [List.all_eq_true]; intro r hr; rw [hk r hr, hkk])]
    cases results with
    | nil => exact absurd rfl hne
    | cons r l => exact ⟨[], r, l, rfl, rfl, fun _ => rfl, fun h => by cases h⟩
  | false =>
    rw [if_neg, if_pos]
    · obtain ⟨l1, m, l2, e, h1, h2, h3⟩ := maxBy_key (cmp := TermChange.cmp) (f := keyOf) (l := results)
        (fun x hx y hy => cmp_same_kind ((hk x hx).trans (hk y hy).symm)) hne
      exact ⟨l1, m, l2, e, by rw [h1]; rfl, (fun h => by cases h), fun _ => ⟨h2, h3⟩⟩
    · rw [List.all_eq_true]
      intro r hr
      rw [hk r hr]
      cases k <;> first | rfl | cases hkk
    · rw [List.all_eq_true]
      intro h
      cases results with
      | nil => exact hne rfl
      | cons r l =>
        have := h r List.mem_cons_self
        rw [hk r List.mem_cons_self, hkk] at this
        cases this

theorem changeAt_of {b : Build} {d : Dimension} {m : CompareMethod} {old new : Option SimpleExtrinsic} {s : SimpleScope}
    (hc : Corner d m old new s) {m' : CompareMethod} {ov nv : Option Nat}
    (h1 : evalOpt b (termOf d old) s = .ok ov) (h2 : evalOpt b (termOf d new) s = .ok nv) :
    ChangeAt b old new s (changeOf (termOf d old) (termOf d new) m' s ov nv) := by
  rw [evalOpt_termOf hc] at h1 h2
  refine ⟨rfl, ?_, ?_, rfl⟩
  · cases old with
    | none => simp only [Option.map_none, evalOpt] at h1; injection h1 with h1; exact h1.symm
    | some e =>
      simp only [Option.map_some, evalOpt] at h1
      cases he : eval b e.term s with
      | ok n => rw [he] at h1; injection h1 with h1; exact ⟨n, h1.symm, he⟩
      | err => rw [he] at h1; cases h1
      | panic => rw [he] at h1; cases h1
      | diverge => rw [he] at h1; cases h1
  · cases new with
    | none => simp only [Option.map_none, evalOpt] at h2; injection h2 with h2; exact h2.symm
    | some e =>
      simp only [Option.map_some, evalOpt] at h2
      cases he : eval b e.term s with
      | ok n => rw [he] at h2; injection h2 with h2; exact ⟨n, h2.symm, he⟩
      | err => rw [he] at h2; cases h2
      | panic => rw [he] at h2; cases h2
      | diverge => rw [he] at h2; cases h2

theorem changeAt_unique {b : Build} {old new : Option SimpleExtrinsic} {s : SimpleScope} {r r' : TermChange}
    (h : ChangeAt b old new s r) (h' : ChangeAt b old new s r') :
    r.oldV = r'.oldV ∧ r.newV = r'.newV ∧ r.percent = r'.percent := by
  obtain ⟨_, h1, h2, h3⟩ := h
  obtain ⟨_, h1', h2', h3'⟩ := h'
  have e1 : r.oldV = r'.oldV := by
    cases old with
    | none => rw [h1, h1']
    | some e =>
      obtain ⟨n, a, c⟩ := h1
      obtain ⟨n', a', c'⟩ := h1'
      rw [c] at c'; injection c' with c'
      rw [a, a', c']
  have e2 : r.newV = r'.newV := by
    cases new with
    | none => rw [h2, h2']
    | some e =>
      obtain ⟨n, a, c⟩ := h2
      obtain ⟨n', a', c'⟩ := h2'
      rw [c] at c'; injection c' with c'
      rw [a, a', c']
  exact ⟨e1, e2, by rw [h3, h3', e1, e2]⟩

theorem compareExtrinsics_not_none {b : Build} {ho : HashOrder} {old new : Option SimpleExtrinsic} {params : CompareParams}
    {r : TermChange} (h : compareExtrinsics b ho old new params = .ok r) : old ≠ none ∨ new ≠ none := by
  cases old with
  | some e => simp
  | none =>
    cases new with
    | some e => simp
    | none =>
      have : compareExtrinsics b ho none none params = .panic := by
        unfold compareExtrinsics
        simp only [Option.map_none, extend_both_none, Res.bind_panic]
      rw [this] at h; cases h

/-- A successful comparison, in full: the list of evaluated points, the results, and where in the list the reported one is. -/
theorem compare_ok {b : Build} {ho : HashOrder} {old new : Option SimpleExtrinsic} {params : CompareParams}
    {r : TermChange} (h : compareExtrinsics b ho old new params = .ok r) :
    ¬ Refused params.method old new ∧
    ∃ scopes : List SimpleScope, (∀ s, s ∈ scopes ↔ Corner params.unit params.method old new s) ∧ SortedBy SimpleScope.cmp scopes ∧
    ∃ l1 l2 : List TermChange, (l1 ++ r :: l2).map (·.scope) = scopes ∧
      (∀ x ∈ l1 ++ r :: l2, ChangeAt b old new x.scope x ∧ ∃ ov nv,
        x = changeOf (termOf params.unit old) (termOf params.unit new) params.method x.scope ov nv) ∧
      ((kindOf (termOf params.unit old) (termOf params.unit new)).isAddedOrRemoved = true → l1 = []) ∧
      ((kindOf (termOf params.unit old) (termOf params.unit new)).isAddedOrRemoved = false →
        (∀ x ∈ l1, keyOf x ≤ keyOf r) ∧ (∀ x ∈ l2, keyOf x < keyOf r)) := by
  have hne := compareExtrinsics_not_none h
  obtain ⟨h1, h2⟩ := compareExtrinsics_spec b ho old new params hne
  have hn : ¬ Refused params.method old new := by
    intro hr
    obtain ⟨msg, e⟩ := h1 hr
    rw [h] at e; cases e
  refine ⟨hn, ?_⟩
  obtain ⟨scopes, hmem, hsort, hsne, e⟩ := h2 hn
  rw [h] at e
  refine ⟨scopes, hmem, hsort, ?_⟩
  cases hm : scopes.mapM (compareTerms b (termOf params.unit old) (termOf params.unit new) params.method) with
  | err => rw [hm] at e; cases e
  | panic => rw [hm] at e; cases e
  | diverge => rw [hm] at e; cases e
  | ok results =>
    rw [hm, Res.bind_ok] at e
    have hf := mapM_ok_iff.1 hm
    have hres : ∀ x ∈ results, x.scope ∈ scopes ∧ ∃ ov nv, evalOpt b (termOf params.unit old) x.scope = .ok ov ∧
        evalOpt b (termOf params.unit new) x.scope = .ok nv ∧
        x = changeOf (termOf params.unit old) (termOf params.unit new) params.method x.scope ov nv := by
      intro x hx
      obtain ⟨s, hs, hsx⟩ := forall₂_mem_right hf hx
      obtain ⟨ov, nv, e1, e2, e3⟩ := (compareTerms_ok (termOf_ne hne)).1 hsx
      have : x.scope = s := by rw [e3]; rfl
      rw [this]
      exact ⟨hs, ov, nv, e1, e2, e3⟩
    have hscopes : results.map (·.scope) = scopes := by
      clear h2 hmem hsort hsne hm e hres
      induction hf with
      | nil => rfl
      | cons hsx _ ih =>
        obtain ⟨ov, nv, _, _, e3⟩ := (compareTerms_ok (termOf_ne hne)).1 hsx
        rw [List.map_cons, ih, e3]; rfl
    have hrne : results ≠ [] := by rintro rfl; exact hsne hscopes.symm
    obtain ⟨l1, r', l2, er, hc, ha, hb⟩ := combine_spec hrne (k := kindOf (termOf params.unit old) (termOf params.unit new)) (by
      intro x hx
      obtain ⟨_, ov, nv, _, _, e3⟩ := hres x hx
      rw [e3]; rfl)
    rw [hc] at e
    injection e with e
    subst e
    refine ⟨l1, l2, by rw [← er]; exact hscopes, ?_, ha, hb⟩
    intro x hx
    rw [← er] at hx
    obtain ⟨hs, ov, nv, e1, e2, e3⟩ := hres x hx
    refine ⟨?_, ov, nv, e3⟩
    have := changeAt_of (m' := params.method) ((hmem _).1 hs) e1 e2
    rw [← e3] at this
    exact this

/-! ### C21 -/

/-- C21: the result of a comparison does not depend on the iteration order of the hash set (nor does the fact of an error). -/
theorem C21_result_order_irrelevant (b : Build) (ho ho' : HashOrder) (old new : Option SimpleExtrinsic) (params : CompareParams) :
    SameOutcome (compareExtrinsics b ho old new params) (compareExtrinsics b ho' old new params) := by
  have h := C21_scopes_order_irrelevant ho ho' (old.map (dropStorage params.unit)) (new.map (dropStorage params.unit)) params.method
    (baseScope params.unit) (sorted_baseScope _)
  unfold compareExtrinsics
  rcases h with h | ⟨⟨m, h⟩, ⟨m', h'⟩⟩
  · simp only [h]; exact .inl rfl
  · simp only [h, h', Res.bind_err]; exact .inr ⟨⟨_, rfl⟩, ⟨_, rfl⟩⟩

/-! ### C25 -/

/-- C25: the reported change is the one at an evaluated corner. -/
theorem C25_reported_is_corner (b : Build) (ho : HashOrder) (old new : Option SimpleExtrinsic) (params : CompareParams)
    (r : TermChange) (h : compareExtrinsics b ho old new params = .ok r) :
    Corner params.unit params.method old new r.scope ∧ ChangeAt b old new r.scope r ∧ r.method = params.method := by
  obtain ⟨_, scopes, hmem, _, l1, l2, hs, hx, _, _⟩ := compare_ok h
  have hr := hx r (by simp)
  refine ⟨(hmem _).1 ?_, hr.1, ?_⟩
  · rw [← hs]
    exact List.mem_map_of_mem (by simp)
  · obtain ⟨_, ov, nv, e⟩ := hr
    rw [e]; rfl

theorem sorted_split {α : Type} {cmp : α → α → Ordering} {l1 l2 : List α} {x : α} (h : SortedBy cmp (l1 ++ x :: l2)) :
    (∀ y ∈ l1, cmp y x = .lt) ∧ (∀ y ∈ l2, cmp x y = .lt) := by
  unfold SortedBy at h
  rw [List.pairwise_append, List.pairwise_cons] at h
  exact ⟨fun y hy => h.2.2 y hy x List.mem_cons_self, h.2.1.1⟩

/-- C25: for a call present in both versions, no evaluated corner has a change of higher rank; of several corners with the same rank
the last one in the order of scopes is reported. -/
theorem C25_maximal (b : Build) (ho : HashOrder) (old new : SimpleExtrinsic) (params : CompareParams)
    (r : TermChange) (h : compareExtrinsics b ho (some old) (some new) params = .ok r)
    (s : SimpleScope) (hs : Corner params.unit params.method (some old) (some new) s) :
    ∃ r', ChangeAt b (some old) (some new) s r' ∧
      (rank r'.percent < rank r.percent ∨ (rank r'.percent = rank r.percent ∧ (s = r.scope ∨ SimpleScope.cmp s r.scope = .lt))) := by
  obtain ⟨_, scopes, hmem, hsort, l1, l2, hsc, hx, _, hmax⟩ := compare_ok h
  have hk : (kindOf (termOf params.unit (some old)) (termOf params.unit (some new))).isAddedOrRemoved = false := by
    rw [termOf, termOf, Option.map_some, Option.map_some, kindOf_some]
    split <;> rfl
  obtain ⟨hm1, hm2⟩ := hmax hk
  have hin : s ∈ (l1 ++ r :: l2).map (·.scope) := by rw [hsc]; exact (hmem s).2 hs
  obtain ⟨x, hxm, rfl⟩ := List.mem_map.1 hin
  refine ⟨x, (hx x hxm).1, ?_⟩
  rw [← hsc, List.map_append, List.map_cons] at hsort
  obtain ⟨hb, _⟩ := sorted_split hsort
  rcases List.mem_append.1 hxm with hm | hm
  · have h1 := hm1 x hm
    have h2 := hb x.scope (List.mem_map_of_mem hm)
    rcases lt_or_eq_of_le h1 with h1 | h1
    · exact .inl h1
    · exact .inr ⟨h1, .inr h2⟩
  · rcases List.mem_cons.1 hm with rfl | hm
    · exact .inr ⟨rfl, .inl rfl⟩
    · exact .inl (hm2 x hm)

/-- C25: for a call present in one version only, the reported point is the first corner in the order of scopes. -/
theorem C25_single_version_first (b : Build) (ho : HashOrder) (old new : Option SimpleExtrinsic) (hone : old = none ∨ new = none)
    (params : CompareParams) (r : TermChange) (h : compareExtrinsics b ho old new params = .ok r)
    (s : SimpleScope) (hs : Corner params.unit params.method old new s) : s = r.scope ∨ SimpleScope.cmp r.scope s = .lt := by
  have hne := compareExtrinsics_not_none h
  obtain ⟨_, scopes, hmem, hsort, l1, l2, hsc, hx, hfirst, _⟩ := compare_ok h
  have hk : (kindOf (termOf params.unit old) (termOf params.unit new)).isAddedOrRemoved = true := by
    cases old with
    | none =>
      cases new with
      | none => simp at hne
      | some e => rfl
    | some o =>
      cases new with
      | none => rfl
      | some e => simp at hone
  have := hfirst hk
  subst this
  have hin : s ∈ ([] ++ r :: l2).map (fun x : TermChange => x.scope) := by rw [hsc]; exact (hmem s).2 hs
  rw [← hsc] at hsort
  simp only [List.nil_append, List.map_cons, List.mem_cons] at hin
  rcases hin with h | h
  · exact .inl h
  · right
    unfold SortedBy at hsort
    simp only [List.nil_append, List.map_cons, List.pairwise_cons] at hsort
    exact hsort.1 s h

theorem scope_cmp_put {s : SimpleScope} (hs : BMap.Sorted s) {x : Str} {n k : Nat} (hb : binding s x = some (.scalar n)) (hk : k < n) :
    SimpleScope.cmp (Scope.putVar s x (.scalar k)) s = .lt := by
  unfold SimpleScope.cmp Scope.putVar
  induction s with
  | nil => cases hb
  | cons p m ih =>
    obtain ⟨q, w⟩ := p
    have hs' := List.pairwise_cons.1 hs
    rw [BMap.insert]
    cases hc : compare x q with
    | lt =>
      exfalso
      rw [binding] at hb
      split at hb
      · rename_i e; rw [e] at hc; exact not_lt_self hc
      · have := binding_mem_keys hb
        obtain ⟨⟨y, v⟩, hy, rfl⟩ := List.mem_map.1 this
        have h1 := hs'.1 _ hy
        exact not_lt_self (cmpStr_trans hc h1)
    | eq =>
      have := cmpStr_eq.1 hc
      subst this
      rw [binding, if_pos rfl] at hb
      injection hb with hb
      subst hb
      simp [List.compareLex, Term.cmp, Nat.compare_eq_lt.2 hk]
    | gt =>
      have hne : ¬ x = q := by rintro rfl; exact not_gt_self hc
      rw [binding, if_neg hne] at hb
      have := ih hs'.2 hb
      have e : (compare q q).then (Term.cmp w w) = .eq := (cmpEntry_eq (q, w) (q, w)).2 rfl
      simp only [List.compareLex, e]
      exact this

/-- C25: for an added or removed call the reported point is the corner with every component at its low instance: with the worst-case
methods the reported weight of an added call is its *smallest* weight among the corners. -/
theorem C25_single_version_low (b : Build) (ho : HashOrder) (old new : Option SimpleExtrinsic) (hone : old = none ∨ new = none)
    (params : CompareParams) (r : TermChange) (h : compareExtrinsics b ho old new params = .ok r) (x : Str)
    (hx : Component old new x) (lo hi : Nat) (hlo : IsLow params.method old new x lo) (hhi : IsHigh params.method old new x hi)
    (hle : lo ≤ hi) : binding r.scope x = some (.scalar lo) := by
  obtain ⟨hc, _, _⟩ := C25_reported_is_corner b ho old new params r h
  obtain ⟨hs, hr, hw, hcomp, hu⟩ := hc
  obtain ⟨n, hn, hl | hh⟩ := hcomp x hx
  · rw [hn, low_unique hl hlo]
  · have e := high_unique hh hhi
    subst e
    rcases Nat.lt_or_ge lo n with hlt | hge
    · exfalso
      have hcorner : Corner params.unit params.method old new (Scope.putVar r.scope x (.scalar lo)) := by
        refine ⟨BMap.sorted_insert hs, ?_, ?_, ?_, ?_⟩
        · rw [binding_putVar, if_neg (fun e => hx.2.1 e.symm), hr]
        · rw [binding_putVar, if_neg (fun e => hx.2.2 e.symm), hw]
        · intro y hy
          rw [binding_putVar]
          by_cases hyx : y = x
          · subst hyx; rw [if_pos rfl]; exact ⟨lo, rfl, .inl hlo⟩
          · rw [if_neg hyx]; exact hcomp y hy
        · intro y u hyu
          rw [binding_putVar] at hyu
          by_cases hyx : y = x
          · subst hyx; exact .inr (.inr hx)
          · rw [if_neg hyx] at hyu; exact hu y u hyu
      have hlt' := scope_cmp_put hs hn hlt
      rcases C25_single_version_first b ho old new hone params r h _ hcorner with e | e
      · rw [e] at hlt'; exact not_lt_self hlt'
      · exact not_lt_self (TransCmp.lt_trans (cmp := SimpleScope.cmp) hlt' e)
    · rw [hn, Nat.le_antisymm hge hle]

/-- Example parameters. -/
def exParams (m : CompareMethod) (d : Dimension) : CompareParams := ⟨m, d, false, false, false, false⟩

/-- Example call with the equation `t`. -/
def exCall (t : SimpleTerm) : SimpleExtrinsic := { name := str% "f", pallet := str% "p", term := t, compRanges := none }

/-- `1000 * n` against `2000 * n + 5`, guess-worst: the worst change is the infinite one at `n = 0`. -/
example : (compareExtrinsics .release idOrder (some (exCall (.mul (.value 1000) (.var (str% "n")))))
    (some (exCall (.add (.mul (.value 2000) (.var (str% "n"))) (.value 5)))) (exParams .guessWorst .time)).map
      (fun r => (r.oldV, r.newV, r.percent, r.change)) = .ok (some 0, some 5, .pinf, .changed) := by decide +kernel

/-- `1000 + n` against `1000 + 20 * n`: worst at `n = 100`. -/
example : (compareExtrinsics .release idOrder (some (exCall (.add (.value 1000) (.var (str% "n")))))
    (some (exCall (.add (.value 1000) (.mul (.value 20) (.var (str% "n")))))) (exParams .guessWorst .time)).map
      (fun r => (r.oldV, r.newV, r.change)) = .ok (some 1100, some 3000, .changed) := by decide +kernel

/-- C25: an added call `1000 + 20 * n` is reported at `n = 0` although it is three times as heavy at `n = 100`. -/
theorem C25_added_not_worst : (compareExtrinsics .release idOrder none
    (some (exCall (.add (.value 1000) (.mul (.value 20) (.var (str% "n")))))) (exParams .guessWorst .time)).map
      (fun r => (r.oldV, r.newV, r.change)) = .ok (none, some 1000, .added) := by decide +kernel

/-! ### C26 -/

theorem evalOpt_of {b : Build} {o : Option SimpleExtrinsic} {s : SimpleScope} (h : ∀ e, o = some e → ∃ n, eval b e.term s = .ok n) :
    ∃ v, evalOpt b (o.map (·.term)) s = .ok v := by
  cases o with
  | none => exact ⟨_, rfl⟩
  | some e =>
    obtain ⟨n, hn⟩ := h e rfl
    exact ⟨some n, by simp only [Option.map_some, evalOpt, hn]; rfl⟩

theorem compare_exists {b : Build} {ho : HashOrder} {old new : Option SimpleExtrinsic} {params : CompareParams}
    (h : old ≠ none ∨ new ≠ none) (hn : ¬ Refused params.method old new)
    (hev : ∀ s, Corner params.unit params.method old new s → ∀ e, (old = some e ∨ new = some e) → ∃ n, eval b e.term s = .ok n) :
    ∃ r, compareExtrinsics b ho old new params = .ok r := by
  obtain ⟨h1, h2⟩ := compareExtrinsics_spec b ho old new params h
  obtain ⟨scopes, hmem, hsort, hsne, e⟩ := h2 hn
  have hall : ∀ s ∈ scopes, ∃ x, compareTerms b (termOf params.unit old) (termOf params.unit new) params.method s = .ok x := by
    intro s hs
    have hc := (hmem s).1 hs
    obtain ⟨ov, e1⟩ := evalOpt_of (o := old) fun e he => hev s hc e (.inl he)
    obtain ⟨nv, e2⟩ := evalOpt_of (o := new) fun e he => hev s hc e (.inr he)
    rw [← evalOpt_termOf hc] at e1 e2
    exact ⟨_, (compareTerms_ok (termOf_ne h)).2 ⟨ov, nv, e1, e2, rfl⟩⟩
  obtain ⟨results, hr⟩ := mapM_ok_of_forall hall
  rw [hr, Res.bind_ok] at e
  have hrne : results ≠ [] := by
    rintro rfl
    have := mapM_ok_iff.1 hr
    cases this
    exact hsne rfl
  obtain ⟨_, r, _, _, hc, _⟩ := combine_spec hrne (k := kindOf (termOf params.unit old) (termOf params.unit new)) (by
    intro x hx
    obtain ⟨s, _, hsx⟩ := mapM_ok_mem' hr hx
    obtain ⟨_, _, _, _, e3⟩ := (compareTerms_ok (termOf_ne h)).1 hsx
    rw [e3]; rfl)
  exact ⟨r, by rw [e, hc]⟩

/-- If a comparison succeeds, both equations have a value at every corner. -/
theorem compare_ok_evals {b : Build} {ho : HashOrder} {old new : Option SimpleExtrinsic} {params : CompareParams} {r : TermChange}
    (h : compareExtrinsics b ho old new params = .ok r) (s : SimpleScope) (hc : Corner params.unit params.method old new s) :
    ∃ r', ChangeAt b old new s r' := by
  obtain ⟨_, scopes, hmem, hsort, l1, l2, hs, hx, _, _⟩ := compare_ok h
  have hin : s ∈ (l1 ++ r :: l2).map (fun x : TermChange => x.scope) := by rw [hs]; exact (hmem s).2 hc
  obtain ⟨x, hxm, rfl⟩ := List.mem_map.1 hin
  exact ⟨x, (hx x hxm).1⟩

theorem compare_ok_eval {b : Build} {ho : HashOrder} {old new : Option SimpleExtrinsic} {params : CompareParams} {r : TermChange}
    (h : compareExtrinsics b ho old new params = .ok r) (s : SimpleScope) (hc : Corner params.unit params.method old new s)
    (e : SimpleExtrinsic) (he : old = some e ∨ new = some e) : ∃ n, eval b e.term s = .ok n := by
  obtain ⟨r', _, h1, h2, _⟩ := compare_ok_evals h s hc
  rcases he with rfl | rfl
  · obtain ⟨n, _, hn⟩ := h1; exact ⟨n, hn⟩
  · obtain ⟨n, _, hn⟩ := h2; exact ⟨n, hn⟩

/-- C26: with at least one version present and in a wrapping build, a comparison never panics: it is refused with an error for more than
16 components or, with an exact method, for a component without an unambiguous range, and succeeds otherwise. -/
theorem C26_total_release (ho : HashOrder) (old new : Option SimpleExtrinsic) (params : CompareParams)
    (h : old ≠ none ∨ new ≠ none) :
    (Refused params.method old new → ∃ msg, compareExtrinsics .release ho old new params = .err msg) ∧
    (¬ Refused params.method old new → ∃ r, compareExtrinsics .release ho old new params = .ok r) := by
  refine ⟨(compareExtrinsics_spec .release ho old new params h).1, fun hn => compare_exists h hn fun s hc e he => ?_⟩
  rcases evalOpt_corner hc .release (o := some e) (fun e' he' => by injection he' with he'; rw [← he']; exact he) with ⟨v, e1⟩ | ⟨hd, _⟩
  · simp only [Option.map_some, evalOpt] at e1
    cases hv : eval .release e.term s with
    | ok n => exact ⟨n, rfl⟩
    | _ => rw [hv] at e1; cases e1
  · cases hd

/-- C26: with overflow checks, the only panic is an arithmetic overflow of one of the two equations at an evaluated corner. -/
theorem C26_total_debug (ho : HashOrder) (old new : Option SimpleExtrinsic) (params : CompareParams)
    (h : old ≠ none ∨ new ≠ none) :
    (Refused params.method old new → ∃ msg, compareExtrinsics .debug ho old new params = .err msg) ∧
    (¬ Refused params.method old new → (∃ r, compareExtrinsics .debug ho old new params = .ok r) ∨
      (compareExtrinsics .debug ho old new params = .panic ∧ ∃ s e, Corner params.unit params.method old new s ∧
        (old = some e ∨ new = some e) ∧ eval .debug e.term s = .panic)) := by
  obtain ⟨h1, h2⟩ := compareExtrinsics_spec .debug ho old new params h
  refine ⟨h1, fun hn => ?_⟩
  obtain ⟨scopes, hmem, hsort, hsne, e⟩ := h2 hn
  have hout : ∀ s ∈ scopes, (∃ x, compareTerms .debug (termOf params.unit old) (termOf params.unit new) params.method s = .ok x) ∨
      (compareTerms .debug (termOf params.unit old) (termOf params.unit new) params.method s = .panic ∧
        ∃ e, (old = some e ∨ new = some e) ∧ eval .debug e.term s = .panic) := by
    intro s hs
    have hc := (hmem s).1 hs
    rcases evalOpt_corner hc .debug (o := old) (fun e he => .inl he) with ⟨ov, e1⟩ | ⟨hd, e1, x, hx, hxp⟩
    · rcases evalOpt_corner hc .debug (o := new) (fun e he => .inr he) with ⟨nv, e2⟩ | ⟨hd, e2, x, hx, hxp⟩
      · rw [← evalOpt_termOf hc] at e1 e2
        exact .inl ⟨_, (compareTerms_ok (termOf_ne h)).2 ⟨ov, nv, e1, e2, rfl⟩⟩
      · rw [← evalOpt_termOf hc] at e1 e2
        refine .inr ⟨?_, x, .inr hx, hxp⟩
        rw [compareTerms_eq _ _ _ (termOf_ne h), e1, e2]; rfl
    · rw [← evalOpt_termOf hc] at e1
      refine .inr ⟨?_, x, .inl hx, hxp⟩
      rw [compareTerms_eq _ _ _ (termOf_ne h), e1]; rfl
  cases hm : scopes.mapM (compareTerms .debug (termOf params.unit old) (termOf params.unit new) params.method) with
  | ok results =>
    left
    rw [hm, Res.bind_ok] at e
    have hrne : results ≠ [] := by
      rintro rfl
      have := mapM_ok_iff.1 hm
      cases this
      exact hsne rfl
    obtain ⟨_, r, _, _, hc, _⟩ := combine_spec hrne (k := kindOf (termOf params.unit old) (termOf params.unit new)) (by
      intro x hx
      obtain ⟨s, _, hsx⟩ := mapM_ok_mem' hm hx
      obtain ⟨_, _, _, _, e3⟩ := (compareTerms_ok (termOf_ne h)).1 hsx
      rw [e3]; rfl)
    exact ⟨r, by rw [e, hc]⟩
  | err m =>
    obtain ⟨s, hs, hm'⟩ := mapM_err hm
    rcases hout s hs with ⟨x, hx⟩ | ⟨hx, _⟩ <;> rw [hx] at hm' <;> cases hm'
  | diverge =>
    obtain ⟨s, hs, hm'⟩ := mapM_diverge hm
    rcases hout s hs with ⟨x, hx⟩ | ⟨hx, _⟩ <;> rw [hx] at hm' <;> cases hm'
  | panic =>
    right
    obtain ⟨s, hs, hm'⟩ := mapM_panic hm
    rcases hout s hs with ⟨x, hx⟩ | ⟨hx, y, hy, hyp⟩
    · rw [hx] at hm'; cases hm'
    · exact ⟨by rw [e, hm]; rfl, s, y, (hmem s).1 hs, hy, hyp⟩

/-- A call with 17 components is refused. -/
example : compareExtrinsics .release idOrder (some (exCall ((str% "abcdefghijklmnopq").foldl (fun t c => .add t (.var [c])) (.value 1)))) none
    (exParams .base .time) = .err (str% "Too many components to compare: p::f has 17 components - limit is 16") := by decide +kernel

/-! ### C27 -/

theorem erase_strip (x : Str) : x.filter (· != '_') = stripUnderscore x := by
  unfold stripUnderscore
  congr 1
  funext c
  by_cases h : c = '_' <;> simp [h]

theorem rustEq_iff (t u : SimpleTerm) : Term.rustEq t u = true ↔ eraseUnderscores t = eraseUnderscores u := by
  induction t generalizing u with
  | value n => cases u <;> simp [Term.rustEq, eraseUnderscores]
  | scalar n => cases u <;> simp [Term.rustEq, eraseUnderscores]
  | var x => cases u <;> simp [Term.rustEq, eraseUnderscores, varEq, erase_strip]
  | add l r hl hr => cases u <;> simp [Term.rustEq, eraseUnderscores, hl, hr]
  | mul l r hl hr => cases u <;> simp [Term.rustEq, eraseUnderscores, hl, hr]

theorem kindOf_spec {d : Dimension} {old new : Option SimpleExtrinsic} (hne : old ≠ none ∨ new ≠ none) :
    let k := kindOf (termOf d old) (termOf d new)
    (k = .added ↔ old = none) ∧ (k = .removed ↔ new = none) ∧
    (k = .unchanged ↔ ∃ o n, old = some o ∧ new = some n ∧ SameEquation d o.term n.term) ∧
    (k = .changed ↔ ∃ o n, old = some o ∧ new = some n ∧ ¬ SameEquation d o.term n.term) := by
  cases old with
  | none =>
    cases new with
    | none => simp at hne
    | some n => simp [termOf, kindOf, optTermEq]
  | some o =>
    cases new with
    | none => simp [termOf, kindOf, optTermEq]
    | some n =>
      simp only [termOf, Option.map_some, kindOf, optTermEq]
      by_cases h : SameEquation d o.term n.term
      · have h' : Term.rustEq (costed d o.term) (costed d n.term) = true := (rustEq_iff _ _).2 h
        simp [h', h]
      · have h' : ¬ Term.rustEq (costed d o.term) (costed d n.term) = true := fun hc => h ((rustEq_iff _ _).1 hc)
        simp [h', h]

theorem reported_kind {b : Build} {ho : HashOrder} {old new : Option SimpleExtrinsic} {params : CompareParams}
    {r : TermChange} (h : compareExtrinsics b ho old new params = .ok r) :
    r.change = kindOf (termOf params.unit old) (termOf params.unit new) := by
  obtain ⟨_, scopes, hmem, _, l1, l2, hs, hx, _, _⟩ := compare_ok h
  obtain ⟨_, ov, nv, e⟩ := hx r (by simp)
  rw [e]; rfl

/-- C27: the meaning of the four kinds of change. -/
theorem C27_kinds (b : Build) (ho : HashOrder) (old new : Option SimpleExtrinsic) (params : CompareParams)
    (r : TermChange) (h : compareExtrinsics b ho old new params = .ok r) :
    (r.change = .added ↔ old = none) ∧ (r.change = .removed ↔ new = none) ∧
    (r.change = .unchanged ↔ ∃ o n, old = some o ∧ new = some n ∧ SameEquation params.unit o.term n.term) ∧
    (r.change = .changed ↔ ∃ o n, old = some o ∧ new = some n ∧ ¬ SameEquation params.unit o.term n.term) := by
  rw [reported_kind h]
  exact kindOf_spec (compareExtrinsics_not_none h)

/-- In the time dimension the compared equations are the given ones. -/
theorem C27_costed_time (t : SimpleTerm) : costed .time t = t := by
  induction t with
  | value => rfl
  | scalar => rfl
  | var x => simp [costed]
  | add l r hl hr => rw [costed, hl, hr]
  | mul l r hl hr => rw [costed, hl, hr]

example : SameEquation .time (.mul (.value 5) (.var (str% "a_b"))) (.mul (.value 5) (.var (str% "_ab")))
    ∧ ¬ SameEquation .time (.mul (.value 5) (.var (str% "a"))) (.mul (.var (str% "a")) (.value 5)) := by
  unfold SameEquation
  decide

/-! ### C28 -/

theorem erase_inj {t u : SimpleTerm} (h : eraseUnderscores t = eraseUnderscores u)
    (hn : ∀ x y, Occurs x t → Occurs y u → x.filter (· != '_') = y.filter (· != '_') → x = y) : t = u := by
  induction t generalizing u with
  | value n => cases u <;> simp_all [eraseUnderscores]
  | scalar n => cases u <;> simp_all [eraseUnderscores]
  | var x =>
    cases u with
    | var y =>
      simp only [eraseUnderscores, Term.var.injEq] at h
      rw [hn x y .here .here h]
    | _ => simp [eraseUnderscores] at h
  | add l r hl hr =>
    cases u with
    | add l' r' =>
      simp only [eraseUnderscores, Term.add.injEq] at h
      rw [hl h.1 fun x y hx hy => hn x y (.addL hx) (.addL hy), hr h.2 fun x y hx hy => hn x y (.addR hx) (.addR hy)]
    | _ => simp [eraseUnderscores] at h
  | mul l r hl hr =>
    cases u with
    | mul l' r' =>
      simp only [eraseUnderscores, Term.mul.injEq] at h
      rw [hl h.1 fun x y hx hy => hn x y (.mulL hx) (.mulL hy), hr h.2 fun x y hx hy => hn x y (.mulR hx) (.mulR hy)]
    | _ => simp [eraseUnderscores] at h

/-- C28: Unchanged implies equal values, if no two different variable names of the equations are equal up to underscores. -/
theorem C28_unchanged_same_value (b : Build) (ho : HashOrder) (old new : SimpleExtrinsic) (params : CompareParams)
    (r : TermChange) (h : compareExtrinsics b ho (some old) (some new) params = .ok r) (hu : r.change = .unchanged)
    (hn : ∀ x y, Occurs x old.term → Occurs y new.term → x.filter (· != '_') = y.filter (· != '_') → x = y) :
    ∃ v, r.oldV = some v ∧ r.newV = some v ∧ r.percent = percent v v := by
  obtain ⟨hc, ⟨_, ⟨n1, o1, e1⟩, ⟨n2, o2, e2⟩, hp⟩, _⟩ := C25_reported_is_corner b ho _ _ params r h
  obtain ⟨_, _, hk, _⟩ := C27_kinds b ho _ _ params r h
  obtain ⟨o, n, ho', hn', hs⟩ := hk.1 hu
  injection ho' with ho'
  injection hn' with hn'
  subst ho' hn'
  have heq := erase_inj hs fun x y hx hy => hn x y (occurs_of_costed hx) (occurs_of_costed hy)
  have : n1 = n2 := by
    rw [← eval_costed hc.2.1 hc.2.2.1] at e1 e2
    rw [heq, e2] at e1
    injection e1 with e1
    exact e1.symm
  subst this
  exact ⟨n1, o1, o2, by rw [hp, o1, o2]; rfl⟩

/-- C28 is false without the hypothesis on names: `READ` (25_000_000) and `READ_` (a component, here 100) are the same equation for
the comparison, and the report says Unchanged with different values. -/
theorem C28_false_with_underscores : (compareExtrinsics .release idOrder (some (exCall (.add (.value 1) (.var (str% "READ")))))
    (some (exCall (.add (.value 1) (.var (str% "READ_"))))) (exParams .asymptotic .time)).map
      (fun r => (r.oldV, r.newV, r.change)) = .ok (some 25000001, some 101, .unchanged) := by decide +kernel

/-! ### C29 -/

theorem component_swap {old new : Option SimpleExtrinsic} : Component old new = Component new old := by
  funext x; simp only [Component, or_comm]

theorem annotated_swap {old new : Option SimpleExtrinsic} : Annotated old new = Annotated new old := by
  funext x r; simp only [Annotated, or_comm]

/-- C29: the same corners are evaluated. -/
theorem C29_same_corners (d : Dimension) (m : CompareMethod) (old new : Option SimpleExtrinsic) (s : SimpleScope) :
    Corner d m old new s ↔ Corner d m new old s := by
  have h1 : IsLow m old new = IsLow m new old := by funext x n; simp only [IsLow, MinInst, MaxInst, annotated_swap]
  have h2 : IsHigh m old new = IsHigh m new old := by funext x n; simp only [IsHigh, MinInst, MaxInst, annotated_swap]
  simp only [Corner, component_swap (old := old), h1, h2]

theorem refused_swap {m : CompareMethod} {old new : Option SimpleExtrinsic} : Refused m old new = Refused m new old := by
  unfold Refused
  rw [component_swap]
  simp only [Unambiguous, annotated_swap (old := old)]

theorem kindOf_mirror {old new : Option SimpleExtrinsic} {d : Dimension} (hne : old ≠ none ∨ new ≠ none) :
    kindOf (termOf d new) (termOf d old) = mirror (kindOf (termOf d old) (termOf d new)) := by
  cases old with
  | none =>
    cases new with
    | none => simp at hne
    | some n => rfl
  | some o =>
    cases new with
    | none => rfl
    | some n =>
      rw [termOf, termOf, Option.map_some, Option.map_some, kindOf_some, kindOf_some]
      have : Term.rustEq (costed d n.term) (costed d o.term) = Term.rustEq (costed d o.term) (costed d n.term) := by
        rw [Bool.eq_iff_iff, rustEq_iff, rustEq_iff, eq_comm]
      rw [this]
      cases Term.rustEq (costed d o.term) (costed d n.term) <;> rfl

/-- C29: at every corner, swapping the two versions swaps the values and mirrors the kind. -/
theorem C29_swap_at_corner (b : Build) (old new : Option SimpleExtrinsic) (s : SimpleScope) (r r' : TermChange)
    (h : ChangeAt b old new s r) (h' : ChangeAt b new old s r') :
    r'.oldV = r.newV ∧ r'.newV = r.oldV ∧ r.percent = percent (r.oldV.getD 0) (r.newV.getD 0)
      ∧ r'.percent = percent (r.newV.getD 0) (r.oldV.getD 0) := by
  obtain ⟨e0, h1, h2, h3⟩ := h
  obtain ⟨e0', h1', h2', h3'⟩ := h'
  have e1 : r'.oldV = r.newV := by
    cases new with
    | none => rw [h2, h1']
    | some e =>
      obtain ⟨n, a, c⟩ := h2
      obtain ⟨n', a', c'⟩ := h1'
      rw [c] at c'; injection c' with c'
      rw [a, a', c']
  have e2 : r'.newV = r.oldV := by
    cases old with
    | none => rw [h1, h2']
    | some e =>
      obtain ⟨n, a, c⟩ := h1
      obtain ⟨n', a', c'⟩ := h2'
      rw [c] at c'; injection c' with c'
      rw [a, a', c']
  exact ⟨e1, e2, h3, by rw [h3', e1, e2]⟩

/-- C29: if a comparison succeeds, so does the swapped one, and the kind is mirrored. -/
theorem C29_swap_result (b : Build) (ho : HashOrder) (old new : Option SimpleExtrinsic) (params : CompareParams)
    (r : TermChange) (h : compareExtrinsics b ho old new params = .ok r) :
    ∃ r', compareExtrinsics b ho new old params = .ok r' ∧ r'.change = mirror r.change := by
  have hne := compareExtrinsics_not_none h
  obtain ⟨hnr, _⟩ := compare_ok h
  obtain ⟨r', e⟩ := compare_exists (ho := ho) (b := b) (params := params) hne.symm (by rw [← refused_swap]; exact hnr)
    fun s hc e he => compare_ok_eval h s ((C29_same_corners _ _ _ _ s).1 hc) e he.symm
  exact ⟨r', e, by rw [reported_kind e, reported_kind h, kindOf_mirror hne]⟩

/-- `1000` against `2000` and back. -/
example : (compareExtrinsics .release idOrder (some (exCall (.value 1000))) (some (exCall (.value 2000))) (exParams .base .time)).map
      (fun r => (r.oldV, r.newV, r.percent, r.change)) = .ok (some 1000, some 2000, .fin 100, .changed)
    ∧ (compareExtrinsics .release idOrder (some (exCall (.value 2000))) (some (exCall (.value 1000))) (exParams .base .time)).map
      (fun r => (r.oldV, r.newV, r.percent, r.change)) = .ok (some 2000, some 1000, .fin (-50), .changed) := by
  constructor <;> decide +kernel

/-! ### C30 -/

namespace Spec

/-- Multiples of the storage costs, and sums of them. -/
inductive StorageCost : SimpleTerm → Prop where
  | one {x : Str} : x = str% "READ" ∨ x = str% "WRITE" → StorageCost (.var x)
  | left {x : Str} (k : SimpleTerm) : (∃ n, IsNum k n) → x = str% "READ" ∨ x = str% "WRITE" → StorageCost (.mul k (.var x))
  | right {x : Str} (k : SimpleTerm) : (∃ n, IsNum k n) → x = str% "READ" ∨ x = str% "WRITE" → StorageCost (.mul (.var x) k)
  | add {t u : SimpleTerm} : StorageCost t → StorageCost u → StorageCost (.add t u)

/-- `t'` is `t` with storage costs added to it (on the right or on the left), once or more often. -/
inductive AddsStorage : SimpleTerm → SimpleTerm → Prop where
  | refl {t} : AddsStorage t t
  | right {t u c} : AddsStorage t u → StorageCost c → AddsStorage t (.add u c)
  | left {t u c} : AddsStorage t u → StorageCost c → AddsStorage t (.add c u)

/-- The same version of a call, up to added storage costs. -/
def SameButStorage : Option SimpleExtrinsic → Option SimpleExtrinsic → Prop
  | none, none => True
  | some e, some e' => e'.compRanges = e.compRanges ∧ AddsStorage e.term e'.term ∧ LitsFit e.term
  | _, _ => False

end Spec

/-- C30: in the time dimension a read costs 25_000_000 and a write 100_000_000 in every report; in the proof dimension they cost 0. -/
theorem C30_storage_constants (b : Build) (ho : HashOrder) (old new : Option SimpleExtrinsic) (params : CompareParams)
    (r : TermChange) (h : compareExtrinsics b ho old new params = .ok r) :
    (params.unit = .time → eval b (.var (str% "READ")) r.scope = .ok 25000000 ∧ eval b (.var (str% "WRITE")) r.scope = .ok 100000000)
    ∧ (params.unit = .proof → eval b (.var (str% "READ")) r.scope = .ok 0 ∧ eval b (.var (str% "WRITE")) r.scope = .ok 0) := by
  obtain ⟨hc, _, _⟩ := C25_reported_is_corner b ho old new params r h
  constructor
  · intro hu
    rw [eval_var, hc.2.1, eval_var, hc.2.2.1, hu]
    exact ⟨eval_scalar _ _ _, eval_scalar _ _ _⟩
  · intro hu
    rw [eval_var, hc.2.1, eval_var, hc.2.2.1, hu]
    exact ⟨eval_scalar _ _ _, eval_scalar _ _ _⟩

theorem eval_storageCost {b : Build} {s : SimpleScope} (hr : binding s (str% "READ") = some (.scalar 0))
    (hw : binding s (str% "WRITE") = some (.scalar 0)) {c : SimpleTerm} (h : StorageCost c) : eval b c s = .ok 0 := by
  have hv : ∀ x, x = str% "READ" ∨ x = str% "WRITE" → eval b (.var x) s = .ok 0 := by
    rintro x (rfl | rfl)
    · rw [eval_var, hr]; exact eval_scalar _ _ _
    · rw [eval_var, hw]; exact eval_scalar _ _ _
  have hk : ∀ k : SimpleTerm, (∃ n, IsNum k n) → ∃ n, eval b k s = .ok n := by
    rintro k ⟨n, rfl | rfl⟩
    · exact ⟨n, eval_scalar _ _ _⟩
    · exact ⟨n, eval_value _ _ _⟩
  induction h with
  | one h => exact hv _ h
  | left k h1 h2 =>
    obtain ⟨n, hn⟩ := hk k h1
    rw [eval_mul, hn, hv _ h2]
    simp [mulU128, u128Size]
  | right k h1 h2 =>
    obtain ⟨n, hn⟩ := hk k h1
    rw [eval_mul, hn, hv _ h2]
    simp [mulU128, u128Size]
  | add _ _ h1 h2 => rw [eval_add, h1, h2]; simp [addU128, u128Size]

theorem occurs_storageCost {c : SimpleTerm} (h : StorageCost c) {x : Str} (hx : Occurs x c) : x = str% "READ" ∨ x = str% "WRITE" := by
  have hk : ∀ k : SimpleTerm, (∃ n, IsNum k n) → ¬ Occurs x k := by
    rintro k ⟨n, rfl | rfl⟩
    · exact not_occurs_scalar
    · exact not_occurs_value
  induction h with
  | one h => rw [occurs_var] at hx; rw [hx]; exact h
  | left k h1 h2 =>
    rcases occurs_mul.1 hx with h | h
    · exact absurd h (hk k h1)
    · rw [occurs_var] at h; rw [h]; exact h2
  | right k h1 h2 =>
    rcases occurs_mul.1 hx with h | h
    · rw [occurs_var] at h; rw [h]; exact h2
    · exact absurd h (hk k h1)
  | add _ _ h1 h2 =>
    rcases occurs_add.1 hx with h | h
    · exact h1 h
    · exact h2 h

theorem occurs_addsStorage {t t' : SimpleTerm} (h : AddsStorage t t') {x : Str} (h1 : x ≠ str% "READ") (h2 : x ≠ str% "WRITE") :
    Occurs x t' ↔ Occurs x t := by
  induction h with
  | refl => rfl
  | right _ hc ih =>
    rw [occurs_add, ih]
    refine ⟨fun h => h.elim id fun h => ?_, .inl⟩
    rcases occurs_storageCost hc h with h | h
    · exact absurd h h1
    · exact absurd h h2
  | left _ hc ih =>
    rw [occurs_add, ih]
    refine ⟨fun h => h.elim (fun h => ?_) id, .inr⟩
    rcases occurs_storageCost hc h with h | h
    · exact absurd h h1
    · exact absurd h h2

/-- Values computed by `eval` are u128 numbers, if the literals and the numbers in the scope are. -/
theorem eval_lt {b : Build} {s : SimpleScope} {t : SimpleTerm} (hs : ∀ x n, binding s x = some (.scalar n) → n < u128Size)
    (hn : ∀ x u, binding s x = some u → ∃ n, u = .scalar n) (hl : LitsFit t) {n : Nat} (h : eval b t s = .ok n) : n < u128Size := by
  induction t generalizing n with
  | value k => rw [eval_value] at h; injection h with h; rw [← h]; exact hl k (.inl .refl)
  | scalar k => rw [eval_scalar] at h; injection h with h; rw [← h]; exact hl k (.inr .refl)
  | var x =>
    rw [eval_var] at h
    cases hb : binding s x with
    | none => rw [hb] at h; cases h
    | some u =>
      obtain ⟨k, rfl⟩ := hn x u hb
      rw [hb] at h
      simp only [eval_scalar] at h
      injection h with h
      rw [← h]; exact hs x k hb
  | add l r hl' hr' =>
    rw [eval_add] at h
    cases e1 : eval b l s with
    | ok a =>
      cases e2 : eval b r s with
      | ok c =>
        rw [e1, e2] at h
        simp only [Res.bind_ok, addU128] at h
        split at h
        · injection h with h; omega
        · cases b
          · cases h
          · injection h with h
            rw [← h]; exact Nat.mod_lt _ (by decide)
      | _ => rw [e1, e2] at h; cases h
    | _ => rw [e1] at h; cases h
  | mul l r hl' hr' =>
    rw [eval_mul] at h
    cases e1 : eval b l s with
    | ok a =>
      cases e2 : eval b r s with
      | ok c =>
        rw [e1, e2] at h
        simp only [Res.bind_ok, mulU128] at h
        split at h
        · injection h with h; omega
        · cases b
          · cases h
          · injection h with h
            rw [← h]; exact Nat.mod_lt _ (by decide)
      | _ => rw [e1, e2] at h; cases h
    | _ => rw [e1] at h; cases h

theorem eval_addsStorage {b : Build} {s : SimpleScope} (hr : binding s (str% "READ") = some (.scalar 0))
    (hw : binding s (str% "WRITE") = some (.scalar 0)) (hs : ∀ x n, binding s x = some (.scalar n) → n < u128Size)
    (hn : ∀ x u, binding s x = some u → ∃ n, u = .scalar n) {t t' : SimpleTerm} (h : AddsStorage t t') (hl : LitsFit t) :
    eval b t' s = eval b t s := by
  induction h with
  | refl => rfl
  | right _ hc ih =>
    rw [eval_add, ih, eval_storageCost hr hw hc]
    cases e : eval b t s with
    | ok n => simp [addU128, eval_lt hs hn hl e]
    | _ => rfl
  | left _ hc ih =>
    rw [eval_add, ih, eval_storageCost hr hw hc]
    cases e : eval b t s with
    | ok n => simp [addU128, eval_lt hs hn hl e]
    | _ => rfl

theorem component_congr {old new old' new' : Option SimpleExtrinsic}
    (h1 : SameButStorage old old') (h2 : SameButStorage new new') : Component old new = Component old' new' := by
  have key : ∀ o o' x, SameButStorage o o' → x ≠ str% "READ" → x ≠ str% "WRITE" →
      ((∃ e, o = some e ∧ Occurs x e.term) ↔ ∃ e, o' = some e ∧ Occurs x e.term) := by
    intro o o' x h hr hw
    cases o <;> cases o' <;> simp only [SameButStorage] at h
    · simp
    · simp only [Option.some.injEq, exists_eq_left']
      exact (occurs_addsStorage h.2.1 hr hw).symm
  funext x
  apply propext
  unfold Component
  refine and_congr_left fun hx => ?_
  simp only [or_and_right, exists_or]
  rw [key old old' x h1 hx.1 hx.2, key new new' x h2 hx.1 hx.2]

theorem annotated_congr {old new old' new' : Option SimpleExtrinsic}
    (h1 : SameButStorage old old') (h2 : SameButStorage new new') : Annotated old new = Annotated old' new' := by
  have key : ∀ o o', SameButStorage o o' → ∀ x r, ((∃ e m, o = some e ∧ e.compRanges = some m ∧ binding m x = some r) ↔
      ∃ e m, o' = some e ∧ e.compRanges = some m ∧ binding m x = some r) := by
    intro o o' h x r
    cases o <;> cases o' <;> simp only [SameButStorage] at h
    · simp
    · simp [h.1]
  funext x r
  apply propext
  have e : ∀ o n : Option SimpleExtrinsic, Annotated o n x r ↔
      (∃ e m, o = some e ∧ e.compRanges = some m ∧ binding m x = some r) ∨ (∃ e m, n = some e ∧ e.compRanges = some m ∧ binding m x = some r) := by
    intro o n
    simp only [Annotated, or_and_right, exists_or]
  rw [e, e, key old old' h1, key new new' h2]

theorem corner_congr {d : Dimension} {m : CompareMethod} {old new old' new' : Option SimpleExtrinsic}
    (h1 : SameButStorage old old') (h2 : SameButStorage new new') : Corner d m old new = Corner d m old' new' := by
  funext s
  simp only [Corner, component_congr h1 h2, IsLow, IsHigh, MinInst, MaxInst, annotated_congr h1 h2]

theorem refused_congr {m : CompareMethod} {old new old' new' : Option SimpleExtrinsic}
    (h1 : SameButStorage old old') (h2 : SameButStorage new new') : Refused m old new = Refused m old' new' := by
  unfold Refused Unambiguous
  rw [component_congr h1 h2, annotated_congr h1 h2]

theorem corner_lt {d : Dimension} {m : CompareMethod} {old new : Option SimpleExtrinsic} {s : SimpleScope}
    (hc : Corner d m old new s) (hfit : ∀ x r, Annotated old new x r → r.min < 2 ^ 32 ∧ r.max < 2 ^ 32) :
    (∀ x n, binding s x = some (.scalar n) → n < u128Size) ∧ (∀ x u, binding s x = some u → ∃ n, u = .scalar n) := by
  have hsz : (2 : Nat) ^ 32 < u128Size := by decide
  have hmin : ∀ x n, MinInst old new x n → n < u128Size := by
    rintro x n (⟨_, rfl⟩ | ⟨⟨r, hr, rfl⟩, _⟩)
    · decide
    · have := (hfit x r hr).1; omega
  have hmax : ∀ x n, MaxInst old new x n → n < u128Size := by
    rintro x n (⟨_, rfl⟩ | ⟨⟨r, hr, rfl⟩, _⟩)
    · decide
    · have := (hfit x r hr).2; omega
  obtain ⟨_, hr, hw, hcomp, hu⟩ := hc
  have hall : ∀ x u, binding s x = some u → ∃ n, u = .scalar n ∧ n < u128Size := by
    intro x u hb
    rcases hu x u hb with rfl | rfl | hx
    · rw [hr] at hb; injection hb with hb
      exact ⟨_, hb.symm, by cases d <;> decide⟩
    · rw [hw] at hb; injection hb with hb
      exact ⟨_, hb.symm, by cases d <;> decide⟩
    · obtain ⟨n, hn, hlh⟩ := hcomp x hx
      rw [hn] at hb; injection hb with hb
      refine ⟨n, hb.symm, ?_⟩
      rcases hlh with h | h <;> cases m <;> first | exact hmin x n h | exact hmax x n h
  refine ⟨fun x n hb => ?_, fun x u hb => ?_⟩
  · obtain ⟨k, hk, hlt⟩ := hall x _ hb
    injection hk with hk
    omega
  · obtain ⟨k, hk, _⟩ := hall x u hb
    exact ⟨k, hk⟩

/-- C30: in the proof dimension, adding multiples of READ and WRITE to either equation changes neither the values, nor the percentage, nor
the point reported. -/
theorem C30_proof_ignores_storage (b : Build) (ho : HashOrder) (old new old' new' : Option SimpleExtrinsic) (params : CompareParams)
    (hu : params.unit = .proof) (h1 : SameButStorage old old') (h2 : SameButStorage new new')
    (hfit : ∀ x r, Annotated old new x r → r.min < 2 ^ 32 ∧ r.max < 2 ^ 32)
    (r : TermChange) (h : compareExtrinsics b ho old new params = .ok r) :
    ∃ r', compareExtrinsics b ho old' new' params = .ok r' ∧ r'.oldV = r.oldV ∧ r'.newV = r.newV ∧ r'.percent = r.percent
      ∧ r'.scope = r.scope := by
  have hne := compareExtrinsics_not_none h
  obtain ⟨hnr, _⟩ := compare_ok h
  have hnone : ∀ o o', SameButStorage o o' → (o = none ↔ o' = none) := by
    intro o o' h
    cases o <;> cases o' <;> simp_all [SameButStorage]
  have hne' : old' ≠ none ∨ new' ≠ none := by
    rw [Ne, Ne, ← hnone old old' h1, ← hnone new new' h2]; exact hne
  have hev : ∀ s, Corner params.unit params.method old new s → ∀ o o', SameButStorage o o' → ∀ e e', o = some e → o' = some e' →
      eval b e'.term s = eval b e.term s := by
    intro s hc o o' ho e e' he he'
    subst he he'
    obtain ⟨hl, hn⟩ := corner_lt hc hfit
    have hr := hc.2.1
    have hw := hc.2.2.1
    rw [hu] at hr hw
    exact eval_addsStorage hr hw hl hn ho.2.1 ho.2.2
  have hget : ∀ o o', SameButStorage o o' → ∀ e', o' = some e' → ∃ e, o = some e := by
    intro o o' h e' he'
    cases o with
    | none => subst he'; exact absurd h (by simp [SameButStorage])
    | some e => exact ⟨e, rfl⟩
  obtain ⟨r', e'⟩ := compare_exists (ho := ho) (b := b) (params := params) hne' (by rw [← refused_congr h1 h2]; exact hnr) (by
    intro s hc e' he'
    rw [← corner_congr h1 h2] at hc
    rcases he' with he' | he'
    · obtain ⟨e, he⟩ := hget _ _ h1 e' he'
      rw [hev s hc _ _ h1 e e' he he']
      exact compare_ok_eval h s hc e (.inl he)
    · obtain ⟨e, he⟩ := hget _ _ h2 e' he'
      rw [hev s hc _ _ h2 e e' he he']
      exact compare_ok_eval h s hc e (.inr he))
  have hat : ∀ s, Corner params.unit params.method old new s → ∀ q, ChangeAt b old new s q ↔ ChangeAt b old' new' s q := by
    intro s hc q
    have key : ∀ o o' v, SameButStorage o o' → (ValueAt b o s v ↔ ValueAt b o' s v) := by
      intro o o' v ho'
      cases o with
      | none =>
        cases o' with
        | none => exact Iff.rfl
        | some => simp [SameButStorage] at ho'
      | some e =>
        cases o' with
        | none => simp [SameButStorage] at ho'
        | some e' => simp only [ValueAt, hev s hc _ _ ho' e e' rfl rfl]
    unfold ChangeAt
    exact and_congr_right fun _ => and_congr (key _ _ _ h1) (and_congr_left fun _ => key _ _ _ h2)
  obtain ⟨hc, hr, _⟩ := C25_reported_is_corner b ho old new params r h
  obtain ⟨hc', hr', _⟩ := C25_reported_is_corner b ho old' new' params r' e'
  have hc1 : Corner params.unit params.method old new r'.scope := by rw [corner_congr h1 h2]; exact hc'
  have hc2 : Corner params.unit params.method old' new' r.scope := by rw [← corner_congr h1 h2]; exact hc
  have hscope : r'.scope = r.scope := by
    by_cases hone : old = none ∨ new = none
    · have hone' : old' = none ∨ new' = none := hone.imp (hnone _ _ h1).1 (hnone _ _ h2).1
      rcases C25_single_version_first b ho old new hone params r h _ hc1 with e | e
      · exact e
      · rcases C25_single_version_first b ho old' new' hone' params r' e' _ hc2 with e2 | e2
        · exact e2.symm
        · exact (not_lt_self (TransCmp.lt_trans (cmp := SimpleScope.cmp) e e2)).elim
    · obtain ⟨o, rfl⟩ : ∃ o, old = some o := by cases old; simp at hone; exact ⟨_, rfl⟩
      obtain ⟨n, rfl⟩ : ∃ n, new = some n := by cases new; simp at hone; exact ⟨_, rfl⟩
      obtain ⟨o', rfl⟩ : ∃ o, old' = some o := by cases old'; simp [SameButStorage] at h1; exact ⟨_, rfl⟩
      obtain ⟨n', rfl⟩ : ∃ n, new' = some n := by cases new'; simp [SameButStorage] at h2; exact ⟨_, rfl⟩
      obtain ⟨q, hq, hq'⟩ := C25_maximal b ho o n params r h _ hc1
      obtain ⟨p, hp, hp'⟩ := C25_maximal b ho o' n' params r' e' _ hc2
      have eq1 := (changeAt_unique hq ((hat _ hc1 _).2 hr')).2.2
      have eq2 := (changeAt_unique hp ((hat _ hc _).1 hr)).2.2
      rw [eq1] at hq'
      rw [eq2] at hp'
      rcases hq' with hq' | ⟨_, hq' | hq'⟩
      · rcases hp' with hp' | ⟨hp', _⟩ <;> omega
      · exact hq'
      · rcases hp' with hp' | ⟨_, hp' | hp'⟩
        · omega
        · exact hp'.symm
        · exact (not_lt_self (TransCmp.lt_trans (cmp := SimpleScope.cmp) hq' hp')).elim
  have hfin : ChangeAt b old new r.scope r' := by
    rw [← hscope]; exact (hat _ hc1 _).2 hr'
  obtain ⟨e1, e2, e3⟩ := changeAt_unique hfin hr
  exact ⟨r', e', e1, e2, e3, hscope⟩

/-- `100 * n` against `200 * n + READ * 7`, proof dimension: the reads are not counted. -/
example : (compareExtrinsics .release idOrder (some (exCall (.mul (.value 100) (.var (str% "n")))))
    (some (exCall (.add (.mul (.value 200) (.var (str% "n"))) (.mul (.var (str% "READ")) (.scalar 7))))) (exParams .asymptotic .proof)).map
      (fun r => (r.oldV, r.newV, r.percent, r.change)) = .ok (some 10000, some 20000, .fin 100, .changed) := by decide +kernel

/-! ### C31 -/

/-- C31: Base reports the values of the equations with every component at its minimum, the asymptotic methods with every component at its
maximum. -/
theorem C31_reported_point (b : Build) (ho : HashOrder) (old new : Option SimpleExtrinsic) (params : CompareParams)
    (r : TermChange) (h : compareExtrinsics b ho old new params = .ok r) :
    (params.method = .base → ∀ x, Component old new x → ∃ n, MinInst old new x n ∧ binding r.scope x = some (.scalar n)) ∧
    (params.method = .asymptotic ∨ params.method = .exactAsymptotic →
      ∀ x, Component old new x → ∃ n, MaxInst old new x n ∧ binding r.scope x = some (.scalar n)) ∧
    (∀ e n, old = some e → r.oldV = some n → eval b e.term r.scope = .ok n) ∧
    (∀ e n, new = some e → r.newV = some n → eval b e.term r.scope = .ok n) := by
  obtain ⟨hc, ⟨_, h1, h2, _⟩, _⟩ := C25_reported_is_corner b ho old new params r h
  refine ⟨?_, ?_, ?_, ?_⟩
  · intro hm x hx
    obtain ⟨n, hn, hlh⟩ := hc.2.2.2.1 x hx
    rw [hm] at hlh
    exact ⟨n, hlh.elim id id, hn⟩
  · rintro (hm | hm) x hx <;>
    · obtain ⟨n, hn, hlh⟩ := hc.2.2.2.1 x hx
      rw [hm] at hlh
      exact ⟨n, hlh.elim id id, hn⟩
  · rintro e n rfl hv
    obtain ⟨k, hk, he⟩ := h1
    rw [hv] at hk; injection hk with hk
    rw [he, hk]
  · rintro e n rfl hv
    obtain ⟨k, hk, he⟩ := h2
    rw [hv] at hk; injection hk with hk
    rw [he, hk]

end Swc
