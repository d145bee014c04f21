/-
What `compare_extrinsics` computes, in terms of the specification: the points evaluated, the values there, and their combination.
-/
import Verif.Props.Corners
import Verif.Lemmas.Order

namespace Swc

open Spec Std Term

theorem binding_baseScope (d : Dimension) (x : Str) :
    binding (baseScope d) x =
      if x = str% "WRITE" then some (.scalar (writeCost d)) else if x = str% "READ" then some (.scalar (readCost d)) else none := by
  have : baseScope d = Scope.putVar (Scope.putVar [] (str% "READ") (.scalar (readCost d))) (str% "WRITE") (.scalar (writeCost d)) := by
    cases d <;> rfl
  rw [this, binding_putVar, binding_putVar]
  rfl

theorem sorted_baseScope (d : Dimension) : BMap.Sorted (baseScope d) := by
  cases d <;> exact BMap.sorted_insert (BMap.sorted_insert (by simp [BMap.Sorted, Scope.empty]))

theorem baseScope_ne_nil (d : Dimension) : baseScope d ≠ [] := by
  cases d <;> decide

theorem dropStorage_term (d : Dimension) (e : SimpleExtrinsic) : (dropStorage d e).term = costed d e.term := by
  cases d with
  | time =>
    show e.term = _
    induction e.term with
    | value => rfl
    | scalar => rfl
    | var x => simp [costed]
    | add l r hl hr => rw [costed, ← hl, ← hr]
    | mul l r hl hr => rw [costed, ← hl, ← hr]
  | proof =>
    show substitute writeVar (.scalar 0) (substitute readVar (.scalar 0) e.term) = _
    induction e.term with
    | value => rfl
    | scalar => rfl
    | var x =>
      rw [substitute, costed]
      by_cases h : x = readVar
      · rw [if_pos h, if_pos ⟨rfl, .inl h⟩]; rfl
      · rw [if_neg h, substitute]
        by_cases h' : x = writeVar
        · rw [if_pos h', if_pos ⟨rfl, .inr h'⟩]
        · rw [if_neg h', if_neg]
          rintro ⟨_, h'' | h''⟩
          · exact h h''
          · exact h' h''
    | add l r hl hr => simp only [substitute, costed, hl, hr]
    | mul l r hl hr => simp only [substitute, costed, hl, hr]

theorem occurs_costed {d : Dimension} {x : Str} (h1 : x ≠ str% "READ") (h2 : x ≠ str% "WRITE") (t : SimpleTerm) :
    Occurs x (costed d t) ↔ Occurs x t := by
  induction t with
  | value => simp [costed, not_occurs_value]
  | scalar => simp [costed, not_occurs_scalar]
  | var y =>
    rw [costed]
    split
    · rename_i h
      rw [occurs_var]
      refine ⟨fun h => absurd h not_occurs_scalar, fun hxy => ?_⟩
      subst hxy
      rcases h.2 with h | h
      · exact absurd h h1
      · exact absurd h h2
    · rfl
  | add l r hl hr => rw [costed, occurs_add, occurs_add, hl, hr]
  | mul l r hl hr => rw [costed, occurs_mul, occurs_mul, hl, hr]

theorem occurs_of_costed {d : Dimension} {x : Str} {t : SimpleTerm} (h : Occurs x (costed d t)) : Occurs x t := by
  induction t with
  | value => exact h
  | scalar => exact h
  | var y =>
    rw [costed] at h
    split at h
    · exact absurd h not_occurs_scalar
    · exact h
  | add l r hl hr =>
    rw [costed, occurs_add] at h
    exact occurs_add.2 (h.imp hl hr)
  | mul l r hl hr =>
    rw [costed, occurs_mul] at h
    exact occurs_mul.2 (h.imp hl hr)

theorem freeIn_base (d : Dimension) (old new : Option SimpleExtrinsic) :
    FreeIn (baseScope d) (old.map (dropStorage d)) (new.map (dropStorage d)) = Component old new := by
  funext x
  apply propext
  rw [FreeIn, Component, binding_baseScope]
  constructor
  · rintro ⟨⟨e, he, ho⟩, hb⟩
    have h1 : x ≠ str% "WRITE" := by rintro rfl; simp at hb
    have h2 : x ≠ str% "READ" := by rintro rfl; revert hb; cases d <;> decide
    refine ⟨?_, h2, h1⟩
    rcases he with he | he
    · obtain ⟨e', h, rfl⟩ := Option.map_eq_some_iff.1 he
      rw [dropStorage_term, occurs_costed h2 h1] at ho
      exact ⟨e', .inl h, ho⟩
    · obtain ⟨e', h, rfl⟩ := Option.map_eq_some_iff.1 he
      rw [dropStorage_term, occurs_costed h2 h1] at ho
      exact ⟨e', .inr h, ho⟩
  · rintro ⟨⟨e, he, ho⟩, h2, h1⟩
    refine ⟨⟨dropStorage d e, ?_, ?_⟩, by rw [if_neg h1, if_neg h2]⟩
    · rcases he with rfl | rfl
      · exact .inl rfl
      · exact .inr rfl
    · rw [dropStorage_term, occurs_costed h2 h1]
      exact ho

theorem dropStorage_ranges (d : Dimension) (e : SimpleExtrinsic) : (dropStorage d e).compRanges = e.compRanges := by
  cases d <;> rfl

theorem annotated_drop (d : Dimension) (old new : Option SimpleExtrinsic) :
    Annotated (old.map (dropStorage d)) (new.map (dropStorage d)) = Annotated old new := by
  funext x r
  apply propext
  constructor
  · rintro ⟨e, m, he, hm, hb⟩
    rcases he with he | he
    · obtain ⟨e', h, rfl⟩ := Option.map_eq_some_iff.1 he
      exact ⟨e', m, .inl h, by rwa [dropStorage_ranges] at hm, hb⟩
    · obtain ⟨e', h, rfl⟩ := Option.map_eq_some_iff.1 he
      exact ⟨e', m, .inr h, by rwa [dropStorage_ranges] at hm, hb⟩
  · rintro ⟨e, m, he, hm, hb⟩
    refine ⟨dropStorage d e, m, ?_, by rwa [dropStorage_ranges], hb⟩
    rcases he with rfl | rfl
    · exact .inl rfl
    · exact .inr rfl

theorem isLow_drop (d : Dimension) (m : CompareMethod) (old new : Option SimpleExtrinsic) :
    IsLow m (old.map (dropStorage d)) (new.map (dropStorage d)) = IsLow m old new := by
  funext x n; simp only [IsLow, MinInst, MaxInst, annotated_drop]

theorem isHigh_drop (d : Dimension) (m : CompareMethod) (old new : Option SimpleExtrinsic) :
    IsHigh m (old.map (dropStorage d)) (new.map (dropStorage d)) = IsHigh m old new := by
  funext x n; simp only [IsHigh, MinInst, MaxInst, annotated_drop]

theorem unambiguous_drop (d : Dimension) (old new : Option SimpleExtrinsic) :
    Unambiguous (old.map (dropStorage d)) (new.map (dropStorage d)) = Unambiguous old new := by
  funext x; simp only [Unambiguous, annotated_drop]

theorem read_ne_write : str% "READ" ≠ str% "WRITE" := by decide

theorem corner_iff (d : Dimension) (m : CompareMethod) (old new : Option SimpleExtrinsic) (lo hi : Str → Nat)
    (h : ∀ x, Component old new x → IsLow m old new x (lo x) ∧ IsHigh m old new x (hi x)) (s : SimpleScope) :
    (s ≠ [] ∧ IsCorner (baseScope d) (Component old new) lo hi s) ↔ Corner d m old new s := by
  constructor
  · rintro ⟨_, hs, hb⟩
    have hr : binding s (str% "READ") = some (.scalar (readCost d)) := by
      rw [(hb _).2 (fun hc => hc.2.1 rfl), binding_baseScope, if_neg read_ne_write, if_pos rfl]
    have hw : binding s (str% "WRITE") = some (.scalar (writeCost d)) := by
      rw [(hb _).2 (fun hc => hc.2.2 rfl), binding_baseScope, if_pos rfl]
    refine ⟨hs, hr, hw, fun x hx => ?_, fun x u hu => ?_⟩
    · rcases (hb x).1 hx with e | e
      · exact ⟨_, e, .inl (h x hx).1⟩
      · exact ⟨_, e, .inr (h x hx).2⟩
    · by_cases hx : Component old new x
      · exact .inr (.inr hx)
      · rw [(hb x).2 hx, binding_baseScope] at hu
        split at hu
        · rename_i e; exact .inr (.inl e)
        · split at hu
          · rename_i e; exact .inl e
          · cases hu
  · rintro ⟨hs, hr, hw, hc, hu⟩
    have hne : s ≠ [] := by
      intro e
      rw [e] at hr
      cases hr
    refine ⟨hne, hs, fun x => ⟨fun hx => ?_, fun hx => ?_⟩⟩
    · obtain ⟨n, e, hl | hh⟩ := hc x hx
      · left; rw [e, low_unique hl (h x hx).1]
      · right; rw [e, high_unique hh (h x hx).2]
    · rw [binding_baseScope]
      split
      · rename_i e; rw [e, hw]
      · split
        · rename_i e; rw [e, hr]
        · rename_i h1 h2
          cases hb : binding s x with
          | none => rfl
          | some u =>
            rcases hu x u hb with e | e | e
            · exact absurd e h2
            · exact absurd e h1
            · exact absurd e hx

theorem corner_bound {d : Dimension} {m : CompareMethod} {old new : Option SimpleExtrinsic} {s : SimpleScope}
    (hc : Corner d m old new s) {e : SimpleExtrinsic} (he : old = some e ∨ new = some e) {x : Str} (hx : Occurs x e.term) :
    ∃ n, binding s x = some (.scalar n) := by
  obtain ⟨_, hr, hw, hcc, _⟩ := hc
  by_cases h1 : x = str% "READ"
  · exact ⟨_, h1 ▸ hr⟩
  · by_cases h2 : x = str% "WRITE"
    · exact ⟨_, h2 ▸ hw⟩
    · obtain ⟨n, h, _⟩ := hcc x ⟨⟨e, he, hx⟩, h1, h2⟩
      exact ⟨n, h⟩

theorem corner_numScope {d : Dimension} {m : CompareMethod} {old new : Option SimpleExtrinsic} {s : SimpleScope}
    (hc : Corner d m old new s) : NumScope s := by
  intro x t h
  obtain ⟨_, hr, hw, hcc, hu⟩ := hc
  rcases hu x t h with e | e | e
  · subst e; rw [hr] at h; injection h with h; exact ⟨_, .inl h.symm⟩
  · subst e; rw [hw] at h; injection h with h; exact ⟨_, .inl h.symm⟩
  · obtain ⟨n, h', _⟩ := hcc x e
    rw [h'] at h; injection h with h; exact ⟨n, .inl h.symm⟩

theorem corner_assigns {d : Dimension} {m : CompareMethod} {old new : Option SimpleExtrinsic} {s : SimpleScope}
    (hc : Corner d m old new s) {e : SimpleExtrinsic} (he : old = some e ∨ new = some e) : Assigns s (assignment s) e.term := by
  intro x hx
  obtain ⟨n, h⟩ := corner_bound hc he hx
  exact ⟨_, h, by rw [assignment, h]; exact .inl rfl⟩

/-- At an evaluation point, the equation with storage dropped evaluates like the original one. -/
theorem eval_costed {d : Dimension} {s : SimpleScope} (hr : binding s (str% "READ") = some (.scalar (readCost d)))
    (hw : binding s (str% "WRITE") = some (.scalar (writeCost d))) (b : Build) (t : SimpleTerm) :
    eval b (costed d t) s = eval b t s := by
  induction t with
  | value => rfl
  | scalar => rfl
  | var x =>
    rw [costed]
    split
    · rename_i h
      obtain ⟨rfl, h⟩ := h
      rcases h with rfl | rfl
      · rw [eval_var, hr, eval_scalar]; simp only [readCost, eval_scalar]
      · rw [eval_var, hw, eval_scalar]; simp only [writeCost, eval_scalar]
    · rfl
  | add l r hl hr' => rw [costed, eval_add, eval_add, hl, hr']
  | mul l r hl hr' => rw [costed, eval_mul, eval_mul, hl, hr']

/-- The equations that are compared. -/
def termOf (d : Dimension) (o : Option SimpleExtrinsic) : Option SimpleTerm := o.map fun e => costed d e.term

theorem compareAt_corner {d : Dimension} {m : CompareMethod} {old new : Option SimpleExtrinsic} {s : SimpleScope}
    (hc : Corner d m old new s) (b : Build) (m' : CompareMethod) :
    compareAt b (old.map (dropStorage d)) (new.map (dropStorage d)) m' s = compareTerms b (termOf d old) (termOf d new) m' s := by
  have hfree : ∀ o : Option SimpleExtrinsic, (∀ e, o = some e → ∀ x, Occurs x e.term → ∃ n, binding s x = some (.scalar n)) →
      ((o.map (dropStorage d)).map fun e => (Term.freeVars s e.term).isEmpty).getD true = true := by
    intro o ho
    cases o with
    | none => rfl
    | some e =>
      simp only [Option.map_some, Option.getD_some, List.isEmpty_iff]
      rw [C02_free_vars_empty]
      intro x hx
      rw [dropStorage_term] at hx
      obtain ⟨n, h⟩ := ho e rfl x (occurs_of_costed hx)
      exact ⟨_, h⟩
  unfold compareAt
  rw [if_pos (hfree old fun e he x hx => corner_bound hc (.inl he) hx), if_pos (hfree new fun e he x hx => corner_bound hc (.inr he) hx)]
  congr 1
  · cases old <;> simp [termOf, dropStorage_term]
  · cases new <;> simp [termOf, dropStorage_term]

/-- Everything there is to know about `compare_extrinsics`, up to the combination of the results. -/
theorem compareExtrinsics_spec (b : Build) (ho : HashOrder) (old new : Option SimpleExtrinsic) (params : CompareParams)
    (h : old ≠ none ∨ new ≠ none) :
    (Refused params.method old new → ∃ msg, compareExtrinsics b ho old new params = .err msg) ∧
    (¬ Refused params.method old new → ∃ scopes : List SimpleScope,
      (∀ s, s ∈ scopes ↔ Corner params.unit params.method old new s) ∧ SortedBy SimpleScope.cmp scopes ∧ scopes ≠ [] ∧
      compareExtrinsics b ho old new params = (do
        let results ← scopes.mapM (compareTerms b (termOf params.unit old) (termOf params.unit new) params.method)
        combineResults results)) := by
  have hd : old.map (dropStorage params.unit) ≠ none ∨ new.map (dropStorage params.unit) ≠ none := by
    simpa using h
  obtain ⟨h1, h2⟩ := extend_spec ho (old.map (dropStorage params.unit)) (new.map (dropStorage params.unit)) hd params.method
    (baseScope params.unit) (sorted_baseScope _)
  rw [freeIn_base, unambiguous_drop] at h1 h2
  rw [isLow_drop, isHigh_drop] at h2
  constructor
  · intro hr
    obtain ⟨msg, e⟩ := h1 hr
    refine ⟨msg, ?_⟩
    unfold compareExtrinsics
    simp only [e, Res.bind_err]
  · intro hr
    obtain ⟨lo, hi, scopes, e, hlh, hmem, hsort⟩ := h2 hr
    have hmem' : ∀ s, s ∈ scopes ↔ Corner params.unit params.method old new s := fun s => by
      rw [hmem, corner_iff params.unit params.method old new lo hi hlh]
    refine ⟨scopes, hmem', hsort, ?_, ?_⟩
    · obtain ⟨s, hc, hne⟩ := corner_exists (baseScope params.unit) (sorted_baseScope _)
        (freesOf idOrder (old.map (dropStorage params.unit)) (new.map (dropStorage params.unit)) (baseScope params.unit)) nodup_freesOf lo hi
      simp only [mem_freesOf, freeIn_base] at hc
      have : s ∈ scopes := (hmem s).2 ⟨hne (baseScope_ne_nil _), hc⟩
      intro hn
      rw [hn] at this
      cases this
    · obtain ⟨w, hw⟩ : ∃ w, (old.map (dropStorage params.unit)).or (new.map (dropStorage params.unit)) = some w := by
        cases old with
        | some x => exact ⟨_, rfl⟩
        | none =>
          cases new with
          | some x => exact ⟨_, rfl⟩
          | none => simp at h
      unfold compareExtrinsics
      simp only [e, Res.bind_ok, hw, Res.unwrap]
      rw [mapM_congr (fun s hs => compareAt_corner ((hmem' s).1 hs) b params.method)]

/-- The kind of change. -/
def kindOf (old new : Option SimpleTerm) : RelativeChange :=
  if optTermEq old new then .unchanged else
    match old, new with
    | none, _ => .added
    | some _, none => .removed
    | some _, some _ => .changed

/-- The result of `compare_terms`, if both evaluations succeed. -/
def changeOf (old new : Option SimpleTerm) (m : CompareMethod) (s : SimpleScope) (ov nv : Option Nat) : TermChange :=
  { old := old, oldV := ov, new := new, newV := nv, change := kindOf old new,
    percent := percent (ov.getD 0) (nv.getD 0), method := m, scope := s }

theorem evalOpt_none_iff {b : Build} {t : Option SimpleTerm} {s : SimpleScope} {v : Option Nat} (h : evalOpt b t s = .ok v) :
    (t = none ↔ v = none) := by
  cases t with
  | none => simp only [evalOpt] at h; injection h with h; simp [← h]
  | some t =>
    simp only [evalOpt] at h
    cases he : eval b t s with
    | ok n => rw [he] at h; injection h with h; simp [← h]
    | err => rw [he] at h; cases h
    | panic => rw [he] at h; cases h
    | diverge => rw [he] at h; cases h

theorem compareTerms_eq (b : Build) (old new : Option SimpleTerm) (hne : old ≠ none ∨ new ≠ none) (m : CompareMethod)
    (s : SimpleScope) :
    compareTerms b old new m s = (do
      let ov ← evalOpt b old s
      let nv ← evalOpt b new s
      .ok (changeOf old new m s ov nv)) := by
  unfold compareTerms
  cases ho : evalOpt b old s with
  | err => rfl
  | panic => rfl
  | diverge => rfl
  | ok ov =>
    cases hn : evalOpt b new s with
    | err => rfl
    | panic => rfl
    | diverge => rfl
    | ok nv =>
      simp only [Res.bind_ok]
      have h1 := evalOpt_none_iff ho
      have h2 := evalOpt_none_iff hn
      by_cases he : optTermEq old new = true
      · rw [if_pos he]; simp only [changeOf, kindOf, he, if_true]
      · rw [if_neg he]
        cases old with
        | none =>
          have := h1.1 rfl; subst this
          cases new with
          | none => simp at hne
          | some n =>
            cases nv with
            | none => exact absurd (h2.2 rfl) (by simp)
            | some v => rfl
        | some o =>
          cases ov with
          | none => exact absurd (h1.2 rfl) (by simp)
          | some w =>
            cases new with
            | none => have := h2.1 rfl; subst this; rfl
            | some n =>
              cases nv with
              | none => exact absurd (h2.2 rfl) (by simp)
              | some v =>
                simp only [RelativeChange.new, Res.bind_ok, changeOf, kindOf, he]
                rfl

theorem compareTerms_ok {b : Build} {old new : Option SimpleTerm} (hne : old ≠ none ∨ new ≠ none) {m : CompareMethod}
    {s : SimpleScope} {r : TermChange} :
    compareTerms b old new m s = .ok r ↔ ∃ ov nv, evalOpt b old s = .ok ov ∧ evalOpt b new s = .ok nv ∧ r = changeOf old new m s ov nv := by
  rw [compareTerms_eq b old new hne]
  cases ho : evalOpt b old s with
  | err => simp
  | panic => simp
  | diverge => simp
  | ok ov =>
    cases hn : evalOpt b new s with
    | err => simp
    | panic => simp
    | diverge => simp
    | ok nv => simp [eq_comm]

/-- Evaluation of an optional version at an evaluation point. -/
theorem evalOpt_termOf {d : Dimension} {m : CompareMethod} {old new : Option SimpleExtrinsic} {s : SimpleScope}
    (hc : Corner d m old new s) (b : Build) (o : Option SimpleExtrinsic) :
    evalOpt b (termOf d o) s = evalOpt b (o.map (·.term)) s := by
  cases o with
  | none => rfl
  | some e => simp only [termOf, Option.map_some, evalOpt, eval_costed hc.2.1 hc.2.2.1]

theorem termOf_ne {d : Dimension} {old new : Option SimpleExtrinsic} (h : old ≠ none ∨ new ≠ none) :
    termOf d old ≠ none ∨ termOf d new ≠ none := by
  simpa [termOf] using h

/-- Outcome of evaluating at an evaluation point: a value, or (debug build only) an overflow panic. -/
theorem evalOpt_corner {d : Dimension} {m : CompareMethod} {old new : Option SimpleExtrinsic} {s : SimpleScope}
    (hc : Corner d m old new s) (b : Build) {o : Option SimpleExtrinsic} (ho : ∀ e, o = some e → old = some e ∨ new = some e) :
    (∃ v, evalOpt b (o.map (·.term)) s = .ok v) ∨
      (b = .debug ∧ evalOpt b (o.map (·.term)) s = .panic ∧ ∃ e, o = some e ∧ eval b e.term s = .panic) := by
  cases o with
  | none => exact .inl ⟨_, rfl⟩
  | some e =>
    simp only [Option.map_some, evalOpt]
    cases numOutcome b s (corner_numScope hc) e.term with
    | ok n h _ => left; exact ⟨_, by rw [h]; rfl⟩
    | panic h hb => right; exact ⟨hb, by rw [h]; rfl, e, rfl, h⟩
    | err x h hx hb =>
      obtain ⟨n, h⟩ := corner_bound hc (ho e rfl) hx
      rw [h] at hb; cases hb

end Swc
