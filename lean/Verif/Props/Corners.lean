/-
C20–C23, C31: which component assignments are evaluated (`core/src/lib.rs:571-657`).
-/
import Verif.Lemmas.Corners
import Verif.Props.Cyclic

namespace Swc

open Spec Std Term

/-! ### The free components -/

/-- The free components, in hash iteration order. -/
def freesOf (ho : HashOrder) (a c : Option SimpleExtrinsic) (scope : SimpleScope) : List Str :=
  ho.order (setUnion compare ((a.map fun e => Term.freeVars scope e.term).getD []) ((c.map fun e => Term.freeVars scope e.term).getD []))

theorem mem_freesOf {ho : HashOrder} {a c : Option SimpleExtrinsic} {scope : SimpleScope} {x : Str} :
    x ∈ freesOf ho a c scope ↔ FreeIn scope a c x := by
  have h1 : ∀ o : Option SimpleExtrinsic, x ∈ (o.map fun e => Term.freeVars scope e.term).getD [] ↔
      (∃ e, o = some e ∧ Occurs x e.term) ∧ binding scope x = none := by
    intro o
    cases o with
    | none => simp
    | some e => simp [mem_freeVars]
  rw [freesOf, (ho.perm _).mem_iff, mem_setUnion, h1, h1, FreeIn]
  constructor
  · rintro (⟨⟨e, h, h2⟩, h3⟩ | ⟨⟨e, h, h2⟩, h3⟩)
    · exact ⟨⟨e, .inl h, h2⟩, h3⟩
    · exact ⟨⟨e, .inr h, h2⟩, h3⟩
  · rintro ⟨⟨e, h | h, h2⟩, h3⟩
    · exact .inl ⟨⟨e, h, h2⟩, h3⟩
    · exact .inr ⟨⟨e, h, h2⟩, h3⟩

theorem nodup_freesOf {ho : HashOrder} {a c : Option SimpleExtrinsic} {scope : SimpleScope} : (freesOf ho a c scope).Nodup :=
  (ho.perm _).nodup_iff.2 (sorted_nodup (cmp := compare) (sorted_setUnion _ _))

theorem moreThan_freesOf {ho : HashOrder} {a c : Option SimpleExtrinsic} {scope : SimpleScope} {n : Nat} :
    MoreThan n (FreeIn scope a c) ↔ n < (freesOf ho a c scope).length := by
  constructor
  · rintro ⟨l, hn, hl, hx⟩
    have : l.length ≤ (freesOf ho a c scope).length := nodup_length_le hn fun x h => mem_freesOf.2 (hx x h)
    omega
  · intro h
    exact ⟨_, nodup_freesOf, h, fun x hx => mem_freesOf.1 hx⟩

/-- The computation of the low and high instance of a component. -/
def instOf (a c : Option SimpleExtrinsic) (m : CompareMethod) (p e : Str) (f : Str) : Res (Str × Nat × Nat) := do
  let lo ← instanceComponent f (a.map fun e => e.compRanges.getD []) (c.map fun e => e.compRanges.getD []) m.minStrategy p e
  let hi ← instanceComponent f (a.map fun e => e.compRanges.getD []) (c.map fun e => e.compRanges.getD []) m.maxStrategy p e
  Res.ok (f, lo, hi)

theorem instOf_err {a c : Option SimpleExtrinsic} {m : CompareMethod} {p e f : Str} (hx : Exact m)
    (hu : ¬ Unambiguous a c f) : ∃ msg, instOf a c m p e f = .err msg := by
  unfold instOf
  have h := (instanceComponent_spec a c f p e m.minStrategy).1 ⟨by rcases hx with rfl | rfl <;> rfl, hu⟩
  obtain ⟨msg, h⟩ := h
  exact ⟨msg, by rw [h]; rfl⟩

theorem instOf_ok {a c : Option SimpleExtrinsic} {m : CompareMethod} {p e f : Str} (h : ¬ (Exact m ∧ ¬ Unambiguous a c f)) :
    ∃ lo hi, instOf a c m p e f = .ok (f, lo, hi) ∧ IsLow m a c f lo ∧ IsHigh m a c f hi := by
  have hmin : ¬ (m.minStrategy.exact = true ∧ ¬ Unambiguous a c f) := by
    rintro ⟨h1, h2⟩
    exact h ⟨by cases m <;> simp [CompareMethod.minStrategy, Exact] at h1 ⊢, h2⟩
  have hmax : ¬ (m.maxStrategy.exact = true ∧ ¬ Unambiguous a c f) := by
    rintro ⟨h1, h2⟩
    exact h ⟨by cases m <;> simp [CompareMethod.maxStrategy, Exact] at h1 ⊢, h2⟩
  obtain ⟨lo, e1, l1, l2⟩ := (instanceComponent_spec a c f p e m.minStrategy).2 hmin
  obtain ⟨hi, e2, h1, h2⟩ := (instanceComponent_spec a c f p e m.maxStrategy).2 hmax
  refine ⟨lo, hi, by unfold instOf; rw [e1, e2]; rfl, ?_, ?_⟩
  · cases m <;> first | exact l1 rfl | exact l2 rfl
  · cases m <;> first | exact h1 rfl | exact h2 rfl

/-- Everything there is to know about `extend_scoped_components`. -/
theorem extend_spec (ho : HashOrder) (a c : Option SimpleExtrinsic) (hac : a ≠ none ∨ c ≠ none) (m : CompareMethod)
    (scope : SimpleScope) (hs : BMap.Sorted scope) :
    ((MoreThan 16 (FreeIn scope a c) ∨ (Exact m ∧ ∃ x, FreeIn scope a c x ∧ ¬ Unambiguous a c x)) →
      ∃ msg, extendScopedComponents ho a c m scope = .err msg) ∧
    (¬ (MoreThan 16 (FreeIn scope a c) ∨ (Exact m ∧ ∃ x, FreeIn scope a c x ∧ ¬ Unambiguous a c x)) →
      ∃ lo hi scopes, extendScopedComponents ho a c m scope = .ok scopes ∧
        (∀ x, FreeIn scope a c x → IsLow m a c x (lo x) ∧ IsHigh m a c x (hi x)) ∧
        (∀ s, s ∈ scopes ↔ s ≠ [] ∧ IsCorner scope (FreeIn scope a c) lo hi s) ∧ SortedBy SimpleScope.cmp scopes) := by
  obtain ⟨ext, hext⟩ : ∃ ext, a.or c = some ext := by
    cases a with
    | some e => exact ⟨e, rfl⟩
    | none => cases c with
      | some e => exact ⟨e, rfl⟩
      | none => simp at hac
  have hdef : extendScopedComponents ho a c m scope =
      if (freesOf ho a c scope).length > 16 then .err (tooManyMsg ext.pallet ext.name (freesOf ho a c scope).length)
      else (do
        let insts ← (freesOf ho a c scope).mapM (instOf a c m ext.pallet ext.name)
        .ok (setOfList SimpleScope.cmp (cornerScopes scope insts))) := by
    simp only [extendScopedComponents, hext, Res.unwrap, Res.bind_ok]
    rfl
  rw [hdef, moreThan_freesOf (ho := ho)]
  constructor
  · intro h
    by_cases hl : (freesOf ho a c scope).length > 16
    · rw [if_pos hl]; exact ⟨_, rfl⟩
    · rw [if_neg hl]
      obtain ⟨hx, x, hf, hu⟩ := h.resolve_left hl
      cases hm : (freesOf ho a c scope).mapM (instOf a c m ext.pallet ext.name) with
      | ok insts =>
        obtain ⟨y, _, hy⟩ := mapM_ok_mem hm (mem_freesOf.2 hf)
        obtain ⟨msg, he⟩ := instOf_err (p := ext.pallet) (e := ext.name) hx hu
        rw [he] at hy; cases hy
      | err msg => exact ⟨msg, rfl⟩
      | panic =>
        obtain ⟨y, _, hy⟩ := mapM_panic hm
        by_cases hy' : Exact m ∧ ¬ Unambiguous a c y
        · obtain ⟨msg, he⟩ := instOf_err (p := ext.pallet) (e := ext.name) hy'.1 hy'.2
          rw [he] at hy; cases hy
        · obtain ⟨lo, hi, he, _⟩ := instOf_ok (p := ext.pallet) (e := ext.name) hy'
          rw [he] at hy; cases hy
      | diverge =>
        obtain ⟨y, _, hy⟩ := mapM_diverge hm
        by_cases hy' : Exact m ∧ ¬ Unambiguous a c y
        · obtain ⟨msg, he⟩ := instOf_err (p := ext.pallet) (e := ext.name) hy'.1 hy'.2
          rw [he] at hy; cases hy
        · obtain ⟨lo, hi, he, _⟩ := instOf_ok (p := ext.pallet) (e := ext.name) hy'
          rw [he] at hy; cases hy
  · intro h
    rw [not_or] at h
    obtain ⟨h1, h2⟩ := h
    rw [if_neg h1]
    have hok : ∀ x, FreeIn scope a c x → ∃ lh : Nat × Nat, instOf a c m ext.pallet ext.name x = .ok (x, lh.1, lh.2) ∧
        IsLow m a c x lh.1 ∧ IsHigh m a c x lh.2 := by
      intro x hx
      obtain ⟨lo, hi, h⟩ := instOf_ok (a := a) (c := c) (m := m) (p := ext.pallet) (e := ext.name) (f := x)
        (fun h' => h2 ⟨h'.1, x, hx, h'.2⟩)
      exact ⟨(lo, hi), h⟩
    classical
    let lo : Str → Nat := fun x => if hx : FreeIn scope a c x then (hok x hx).choose.1 else 0
    let hi : Str → Nat := fun x => if hx : FreeIn scope a c x then (hok x hx).choose.2 else 0
    have hlo : ∀ x, FreeIn scope a c x → instOf a c m ext.pallet ext.name x = .ok (x, lo x, hi x) ∧
        IsLow m a c x (lo x) ∧ IsHigh m a c x (hi x) := by
      intro x hx
      simp only [lo, hi, dif_pos hx]
      exact (hok x hx).choose_spec
    refine ⟨lo, hi, setOfList SimpleScope.cmp (cornerScopes scope ((freesOf ho a c scope).map fun x => (x, lo x, hi x))), ?_,
      fun x hx => (hlo x hx).2, ?_, sorted_setOfList _⟩
    · rw [mapM_ok_map (g := fun x => (x, lo x, hi x)) fun x hx => (hlo x (mem_freesOf.1 hx)).1]
      rfl
    · intro s
      rw [mem_setOfList, mem_cornerScopes scope hs _ nodup_freesOf]
      simp only [IsCorner, mem_freesOf]

theorem extend_both_none (ho : HashOrder) (m : CompareMethod) (scope : SimpleScope) :
    extendScopedComponents ho none none m scope = .panic := rfl

theorem extend_not_none {ho : HashOrder} {a c : Option SimpleExtrinsic} {m : CompareMethod} {scope : SimpleScope}
    {scopes : List SimpleScope} (h : extendScopedComponents ho a c m scope = .ok scopes) : a ≠ none ∨ c ≠ none := by
  cases a with
  | some e => simp
  | none =>
    cases c with
    | some e => simp
    | none => rw [extend_both_none] at h; cases h

theorem extend_ok_spec {ho : HashOrder} {a c : Option SimpleExtrinsic} {m : CompareMethod} {scope : SimpleScope}
    {scopes : List SimpleScope} (hs : BMap.Sorted scope) (h : extendScopedComponents ho a c m scope = .ok scopes) :
    ¬ (MoreThan 16 (FreeIn scope a c) ∨ (Exact m ∧ ∃ x, FreeIn scope a c x ∧ ¬ Unambiguous a c x)) ∧
    ∃ lo hi, (∀ x, FreeIn scope a c x → IsLow m a c x (lo x) ∧ IsHigh m a c x (hi x)) ∧
        (∀ s, s ∈ scopes ↔ s ≠ [] ∧ IsCorner scope (FreeIn scope a c) lo hi s) ∧ SortedBy SimpleScope.cmp scopes := by
  have hs' := extend_spec ho a c (extend_not_none h) m scope hs
  have hn : ¬ (MoreThan 16 (FreeIn scope a c) ∨ (Exact m ∧ ∃ x, FreeIn scope a c x ∧ ¬ Unambiguous a c x)) := by
    intro hc
    obtain ⟨msg, e⟩ := hs'.1 hc
    rw [h] at e; cases e
  refine ⟨hn, ?_⟩
  obtain ⟨lo, hi, sc, e, h1, h2, h3⟩ := hs'.2 hn
  rw [h] at e
  injection e with e
  subst e
  exact ⟨lo, hi, h1, h2, h3⟩

/-! ### C20 -/

/-- C20: the evaluated scopes are exactly the (non-empty) corners between the low and high instances, each once, in ascending
order. -/
theorem C20_scopes_are_corners (ho : HashOrder) (a c : Option SimpleExtrinsic) (m : CompareMethod) (scope : SimpleScope)
    (hs : scope.Pairwise (fun p q => compare p.1 q.1 = .lt)) (scopes : List SimpleScope)
    (h : extendScopedComponents ho a c m scope = .ok scopes) :
    ∃ lo hi : Str → Nat,
      (∀ x, FreeIn scope a c x → IsLow m a c x (lo x) ∧ IsHigh m a c x (hi x)) ∧
      (∀ s, s ∈ scopes ↔ s ≠ [] ∧ IsCorner scope (FreeIn scope a c) lo hi s) ∧
      scopes.Nodup ∧ scopes.Pairwise (fun s t => SimpleScope.cmp s t = .lt) := by
  obtain ⟨_, lo, hi, h1, h2, h3⟩ := extend_ok_spec hs h
  exact ⟨lo, hi, h1, h2, sorted_nodup h3, h3⟩

/-- The identity iteration order. -/
def idOrder : HashOrder := ⟨id, fun _ => List.Perm.refl _⟩

/-- Example call: `1000 * n + READ * m`, with `n` annotated as `[1, 5]` and `m` not annotated. -/
def exExt : SimpleExtrinsic :=
  { name := str% "f", pallet := str% "p",
    term := .add (.mul (.value 1000) (.var (str% "n"))) (.mul (.var (str% "READ")) (.var (str% "m"))),
    compRanges := some [(str% "n", ⟨1, 5⟩)] }

example : extendScopedComponents idOrder (some exExt) none .guessWorst (baseScope .time) = .ok
    [ [(str% "READ", .scalar 25000000), (str% "WRITE", .scalar 100000000), (str% "m", .scalar 0), (str% "n", .scalar 1)],
      [(str% "READ", .scalar 25000000), (str% "WRITE", .scalar 100000000), (str% "m", .scalar 0), (str% "n", .scalar 5)],
      [(str% "READ", .scalar 25000000), (str% "WRITE", .scalar 100000000), (str% "m", .scalar 100), (str% "n", .scalar 1)],
      [(str% "READ", .scalar 25000000), (str% "WRITE", .scalar 100000000), (str% "m", .scalar 100), (str% "n", .scalar 5)] ] := by
  decide

/-! ### C21 -/

namespace Spec

/-- The same outcome, except that two errors may differ in their message. -/
def SameOutcome {α : Type} (r r' : Res α) : Prop := r = r' ∨ ((∃ m, r = .err m) ∧ ∃ m, r' = .err m)

end Spec

theorem minInst_unique {a c : Option SimpleExtrinsic} {x : Str} {n n' : Nat} (h : MinInst a c x n) (h' : MinInst a c x n') : n = n' := by
  rcases h with ⟨h1, h2⟩ | ⟨⟨r, h1, h2⟩, h3⟩ <;> rcases h' with ⟨h1', h2'⟩ | ⟨⟨r', h1', h2'⟩, h3'⟩
  · omega
  · exact absurd h1' (h1 r')
  · exact absurd h1 (h1' r)
  · have := h3 r' h1'
    have := h3' r h1
    omega

theorem maxInst_unique {a c : Option SimpleExtrinsic} {x : Str} {n n' : Nat} (h : MaxInst a c x n) (h' : MaxInst a c x n') : n = n' := by
  rcases h with ⟨h1, h2⟩ | ⟨⟨r, h1, h2⟩, h3⟩ <;> rcases h' with ⟨h1', h2'⟩ | ⟨⟨r', h1', h2'⟩, h3'⟩
  · omega
  · exact absurd h1' (h1 r')
  · exact absurd h1 (h1' r)
  · have := h3 r' h1'
    have := h3' r h1
    omega

theorem low_unique {m : CompareMethod} {a c : Option SimpleExtrinsic} {x : Str} {n n' : Nat} (h : IsLow m a c x n)
    (h' : IsLow m a c x n') : n = n' := by
  cases m <;> first | exact minInst_unique h h' | exact maxInst_unique h h'

theorem high_unique {m : CompareMethod} {a c : Option SimpleExtrinsic} {x : Str} {n n' : Nat} (h : IsHigh m a c x n)
    (h' : IsHigh m a c x n') : n = n' := by
  cases m <;> first | exact minInst_unique h h' | exact maxInst_unique h h'

/-- C21: the evaluated scopes do not depend on the iteration order of the hash set (nor does the fact of an error). -/
theorem C21_scopes_order_irrelevant (ho ho' : HashOrder) (a c : Option SimpleExtrinsic) (m : CompareMethod) (scope : SimpleScope)
    (hs : scope.Pairwise (fun p q => compare p.1 q.1 = .lt)) :
    SameOutcome (extendScopedComponents ho a c m scope) (extendScopedComponents ho' a c m scope) := by
  by_cases hac : a ≠ none ∨ c ≠ none
  · obtain ⟨e1, o1⟩ := extend_spec ho a c hac m scope hs
    obtain ⟨e2, o2⟩ := extend_spec ho' a c hac m scope hs
    by_cases hbad : MoreThan 16 (FreeIn scope a c) ∨ (Exact m ∧ ∃ x, FreeIn scope a c x ∧ ¬ Unambiguous a c x)
    · exact .inr ⟨e1 hbad, e2 hbad⟩
    · obtain ⟨lo, hi, sc, h1, h2, h3, h4⟩ := o1 hbad
      obtain ⟨lo', hi', sc', h1', h2', h3', h4'⟩ := o2 hbad
      left
      rw [h1, h1']
      congr 1
      apply sorted_ext h4 h4'
      intro s
      rw [h3, h3']
      simp only [IsCorner]
      refine and_congr_right fun _ => and_congr_right fun _ => forall_congr' fun x => and_congr_left fun _ => ?_
      constructor
      · intro h hx
        have := h hx
        rwa [low_unique (h2 x hx).1 (h2' x hx).1, high_unique (h2 x hx).2 (h2' x hx).2] at this
      · intro h hx
        have := h hx
        rwa [low_unique (h2' x hx).1 (h2 x hx).1, high_unique (h2' x hx).2 (h2 x hx).2] at this
  · have h1 : a = none := Classical.byContradiction fun h => hac (.inl h)
    have h2 : c = none := Classical.byContradiction fun h => hac (.inr h)
    subst h1 h2
    exact .inl rfl

/-- The reversed iteration order. -/
def revOrder : HashOrder := ⟨List.reverse, fun _ => List.reverse_perm _⟩

example : extendScopedComponents idOrder (some exExt) none .guessWorst (baseScope .time)
    = extendScopedComponents revOrder (some exExt) none .guessWorst (baseScope .time) := by decide

/-! ### C22 -/

/-- C22: an exact method that succeeds used an annotated range for every component, the same in both versions. -/
theorem C22_exact_never_guesses (ho : HashOrder) (a c : Option SimpleExtrinsic) (m : CompareMethod) (hm : Exact m)
    (scope : SimpleScope) (hs : scope.Pairwise (fun p q => compare p.1 q.1 = .lt)) (scopes : List SimpleScope)
    (h : extendScopedComponents ho a c m scope = .ok scopes) (x : Str) (hx : FreeIn scope a c x) :
    ∃ r, Annotated a c x r ∧ (∀ r', Annotated a c x r' → r' = r) ∧
      ∀ s ∈ scopes, binding s x = some (.scalar r.min) ∨ binding s x = some (.scalar r.max) := by
  obtain ⟨hn, lo, hi, h1, h2, _⟩ := extend_ok_spec hs h
  have hu : Unambiguous a c x := Classical.byContradiction fun hc => hn (.inr ⟨hm, x, hx, hc⟩)
  obtain ⟨r, hr, hr'⟩ := hu
  refine ⟨r, hr, hr', fun s hsm => ?_⟩
  have hmin : ∀ n, MinInst a c x n → n = r.min := by
    rintro n (⟨h, _⟩ | ⟨⟨q, hq, rfl⟩, _⟩)
    · exact absurd hr (h r)
    · rw [hr' q hq]
  have hmax : ∀ n, MaxInst a c x n → n = r.max := by
    rintro n (⟨h, _⟩ | ⟨⟨q, hq, rfl⟩, _⟩)
    · exact absurd hr (h r)
    · rw [hr' q hq]
  obtain ⟨hl, hh⟩ := h1 x hx
  have hb := (((h2 s).1 hsm).2.2 x).1 hx
  rcases hm with rfl | rfl
  · rw [hmin _ hl, hmax _ hh] at hb; exact hb
  · rw [hmax _ hl, hmax _ hh] at hb; exact .inr (hb.elim id id)

/-- C22: with an exact method, a component without a range, or with two different ranges, is an error. -/
theorem C22_exact_missing_is_error (ho : HashOrder) (a c : Option SimpleExtrinsic) (m : CompareMethod) (hm : Exact m)
    (scope : SimpleScope) (hs : scope.Pairwise (fun p q => compare p.1 q.1 = .lt)) (x : Str) (hx : FreeIn scope a c x)
    (hbad : (∀ r, ¬ Annotated a c x r) ∨ ∃ r r', Annotated a c x r ∧ Annotated a c x r' ∧ r ≠ r') :
    ∃ msg, extendScopedComponents ho a c m scope = .err msg := by
  have hac : a ≠ none ∨ c ≠ none := by
    obtain ⟨⟨e, h | h, _⟩, _⟩ := hx
    · left; rw [h]; simp
    · right; rw [h]; simp
  refine (extend_spec ho a c hac m scope hs).1 (.inr ⟨hm, x, hx, ?_⟩)
  rintro ⟨r, hr, hr'⟩
  rcases hbad with h | ⟨q, q', h1, h2, h3⟩
  · exact h r hr
  · exact h3 ((hr' q h1).trans (hr' q' h2).symm)

/-- C22: the guessing methods fail only because of too many components. -/
theorem C22_guess_total (ho : HashOrder) (a c : Option SimpleExtrinsic) (hac : a ≠ none ∨ c ≠ none) (m : CompareMethod)
    (hm : m = .base ∨ m = .guessWorst ∨ m = .asymptotic) (scope : SimpleScope)
    (hs : scope.Pairwise (fun p q => compare p.1 q.1 = .lt)) (hn : ¬ MoreThan 16 (FreeIn scope a c)) :
    ∃ scopes, extendScopedComponents ho a c m scope = .ok scopes := by
  obtain ⟨_, _, sc, h, _⟩ := (extend_spec ho a c hac m scope hs).2 (by
    rintro (h | ⟨h, _⟩)
    · exact hn h
    · rcases hm with rfl | rfl | rfl <;> rcases h with h | h <;> cases h)
  exact ⟨sc, h⟩

/-- C22: exact messages: no range, two different ranges, and more than 16 components. -/
example : extendScopedComponents idOrder (some exExt) none .exactWorst (baseScope .time)
      = .err (str% "No range for component m of call p::f - use Guess instead!")
    ∧ extendScopedComponents idOrder (some exExt) (some { exExt with compRanges := some [(str% "n", ⟨1, 6⟩), (str% "m", ⟨0, 3⟩)] })
        .exactAsymptotic (baseScope .time)
      = .err (str% "Component n of call p::f has different ranges in the old and new version - use Guess instead!") := by
  decide

/-! ### C23 -/

/-- C23: every value given to a component with well-formed annotations lies between an annotated minimum and an annotated maximum,
and is the smallest minimum or the largest maximum; a component without annotations is 0 or 100. -/
theorem C23_instances_in_hull (ho : HashOrder) (a c : Option SimpleExtrinsic) (m : CompareMethod)
    (scope : SimpleScope) (hs : scope.Pairwise (fun p q => compare p.1 q.1 = .lt)) (scopes : List SimpleScope)
    (h : extendScopedComponents ho a c m scope = .ok scopes) (x : Str) (hx : FreeIn scope a c x)
    (hwf : ∀ r, Annotated a c x r → r.min ≤ r.max) (s : SimpleScope) (hsm : s ∈ scopes) :
    ∃ n, binding s x = some (.scalar n) ∧
      ((∀ r, ¬ Annotated a c x r) → n = 0 ∨ n = 100) ∧
      ((∃ r, Annotated a c x r) → (MinInst a c x n ∨ MaxInst a c x n) ∧
        (∃ r, Annotated a c x r ∧ r.min ≤ n) ∧ (∃ r, Annotated a c x r ∧ n ≤ r.max)) := by
  obtain ⟨_, lo, hi, h1, h2, _⟩ := extend_ok_spec hs h
  obtain ⟨hl, hh⟩ := h1 x hx
  have hb := (((h2 s).1 hsm).2.2 x).1 hx
  have key : ∀ n, MinInst a c x n ∨ MaxInst a c x n →
      ((∀ r, ¬ Annotated a c x r) → n = 0 ∨ n = 100) ∧
      ((∃ r, Annotated a c x r) → (MinInst a c x n ∨ MaxInst a c x n) ∧
        (∃ r, Annotated a c x r ∧ r.min ≤ n) ∧ (∃ r, Annotated a c x r ∧ n ≤ r.max)) := by
    intro n hn
    refine ⟨fun hno => ?_, fun hsome => ⟨hn, ?_⟩⟩
    · rcases hn with (⟨_, h⟩ | ⟨⟨r, hr, _⟩, _⟩) | (⟨_, h⟩ | ⟨⟨r, hr, _⟩, _⟩)
      · exact .inl h
      · exact absurd hr (hno r)
      · exact .inr h
      · exact absurd hr (hno r)
    · obtain ⟨r0, hr0⟩ := hsome
      rcases hn with (⟨h, _⟩ | ⟨⟨r, hr, rfl⟩, h'⟩) | (⟨h, _⟩ | ⟨⟨r, hr, rfl⟩, h'⟩)
      · exact absurd hr0 (h r0)
      · exact ⟨⟨r, hr, Nat.le_refl _⟩, ⟨r, hr, hwf r hr⟩⟩
      · exact absurd hr0 (h r0)
      · exact ⟨⟨r, hr, hwf r hr⟩, ⟨r, hr, Nat.le_refl _⟩⟩
  have hlow : MinInst a c x (lo x) ∨ MaxInst a c x (lo x) := by
    cases m <;> first | exact .inl hl | exact .inr hl
  have hhigh : MinInst a c x (hi x) ∨ MaxInst a c x (hi x) := by
    cases m <;> first | exact .inl hh | exact .inr hh
  rcases hb with hb | hb
  · exact ⟨_, hb, key _ hlow⟩
  · exact ⟨_, hb, key _ hhigh⟩

/-! ### C31 -/

theorem singleton_of {scopes : List SimpleScope} (hn : scopes.Nodup) {s : SimpleScope} (hs : s ∈ scopes)
    (h : ∀ t ∈ scopes, t = s) : scopes = [s] := by
  cases scopes with
  | nil => cases hs
  | cons t l =>
    have ht := h t List.mem_cons_self
    subst ht
    cases l with
    | nil => rfl
    | cons u l =>
      have hu := h u (List.mem_cons_of_mem _ List.mem_cons_self)
      subst hu
      simp at hn

/-- Existence of a corner: put the low instances on top of the scope. -/
theorem corner_exists (scope : SimpleScope) (hs : BMap.Sorted scope) (frees : List Str) (hn : frees.Nodup) (lo hi : Str → Nat) :
    ∃ s, IsCorner scope (· ∈ frees) lo hi s ∧ (scope ≠ [] → s ≠ []) := by
  refine ⟨cornerScope scope 0 (frees.map fun f => (f, lo f, hi f)), ?_⟩
  have hmem : (cornerScope scope 0 (frees.map fun f => (f, lo f, hi f))) ≠ [] →
      IsCorner scope (· ∈ frees) lo hi (cornerScope scope 0 (frees.map fun f => (f, lo f, hi f))) := by
    intro hne
    refine ((mem_cornerScopes scope hs frees hn lo hi _).1 ?_).2
    simp only [cornerScopes, List.mem_filter, List.mem_map, List.mem_range]
    refine ⟨⟨0, Nat.two_pow_pos _, rfl⟩, ?_⟩
    simp only [Scope.isEmpty, Bool.not_eq_true', List.isEmpty_eq_false_iff]
    exact hne
  have hne : scope ≠ [] → cornerScope scope 0 (frees.map fun f => (f, lo f, hi f)) ≠ [] := by
    intro h
    rw [cornerScope_eq]
    generalize (frees.map fun f => (f, lo f, hi f)).zipIdx = l
    clear hmem
    induction l generalizing scope with
    | nil => exact h
    | cons p l ih =>
      rw [List.foldl_cons]
      refine ih (cornerStep 0 scope p) (BMap.sorted_insert hs) ?_
      intro hc
      have : scope.length ≤ (cornerStep 0 scope p).length := BMap.length_insert_le
      rw [hc] at this
      cases scope with
      | nil => exact h rfl
      | cons => simp at this
  refine ⟨?_, hne⟩
  by_cases h : cornerScope scope 0 (frees.map fun f => (f, lo f, hi f)) = []
  · -- then the scope is empty and nothing is free
    have hsc : scope = [] := Classical.byContradiction fun hc => hne hc h
    subst hsc
    have hf : frees = [] := by
      cases frees with
      | nil => rfl
      | cons f l =>
        have hk := binding_cornerFold_mem 0 ((f :: l).map fun f => (f, lo f, hi f)).zipIdx ([] : SimpleScope)
          (by rw [zipIdx_keys, List.map_map]; simpa [Function.comp_def] using hn) (p := ((f, lo f, hi f), 0)) (by simp)
        rw [← cornerScope_eq, h] at hk
        simp [binding] at hk
    subst hf
    rw [h]
    exact ⟨by simp, fun x => ⟨fun hx => by simp at hx, fun _ => rfl⟩⟩
  · exact hmem h

/-- C31: Base evaluates exactly one point, at which every component has its minimum; the asymptotic methods evaluate exactly one
point, at which every component has its maximum. -/
theorem C31_single_point (ho : HashOrder) (a c : Option SimpleExtrinsic) (m : CompareMethod)
    (hm : m = .base ∨ m = .exactAsymptotic ∨ m = .asymptotic) (scope : SimpleScope) (hne : scope ≠ [])
    (hs : scope.Pairwise (fun p q => compare p.1 q.1 = .lt)) (scopes : List SimpleScope)
    (h : extendScopedComponents ho a c m scope = .ok scopes) :
    ∃ s, scopes = [s] ∧ (∀ x, ¬ FreeIn scope a c x → binding s x = binding scope x) ∧
      ∀ x, FreeIn scope a c x → ∃ n, binding s x = some (.scalar n) ∧
        (m = .base → MinInst a c x n) ∧ (m ≠ .base → MaxInst a c x n) := by
  obtain ⟨_, lo, hi, h1, h2, h3⟩ := extend_ok_spec hs h
  have heq : ∀ x, FreeIn scope a c x → lo x = hi x := by
    intro x hx
    obtain ⟨hl, hh⟩ := h1 x hx
    rcases hm with rfl | rfl | rfl
    · exact minInst_unique hl hh
    · exact maxInst_unique hl hh
    · exact maxInst_unique hl hh
  obtain ⟨s, hc, hsne⟩ := corner_exists scope hs (freesOf idOrder a c scope) nodup_freesOf lo hi
  simp only [mem_freesOf] at hc
  have hsm : s ∈ scopes := (h2 s).2 ⟨hsne hne, hc⟩
  have huniq : ∀ t ∈ scopes, t = s := by
    intro t ht
    have ht' := ((h2 t).1 ht).2
    apply BMap.ext ht'.1 hc.1
    intro x
    rw [← binding_eq_get, ← binding_eq_get]
    by_cases hx : FreeIn scope a c x
    · have e1 : binding t x = some (.scalar (lo x)) := by
        rcases (ht'.2 x).1 hx with e | e
        · exact e
        · rw [e, heq x hx]
      have e2 : binding s x = some (.scalar (lo x)) := by
        rcases (hc.2 x).1 hx with e | e
        · exact e
        · rw [e, heq x hx]
      rw [e1, e2]
    · rw [(ht'.2 x).2 hx, (hc.2 x).2 hx]
  refine ⟨s, singleton_of (sorted_nodup h3) hsm huniq, fun x hx => (hc.2 x).2 hx, fun x hx => ?_⟩
  obtain ⟨hl, hh⟩ := h1 x hx
  refine ⟨lo x, ?_, ?_, ?_⟩
  · rcases (hc.2 x).1 hx with e | e
    · exact e
    · rw [e, heq x hx]
  · rintro rfl; exact hl
  · intro hb
    rcases hm with rfl | rfl | rfl
    · exact absurd rfl hb
    · exact hl
    · exact hl

example : extendScopedComponents idOrder (some exExt) none .base (baseScope .time) = .ok
      [[(str% "READ", .scalar 25000000), (str% "WRITE", .scalar 100000000), (str% "m", .scalar 0), (str% "n", .scalar 1)]]
    ∧ extendScopedComponents idOrder (some exExt) none .asymptotic (baseScope .time) = .ok
      [[(str% "READ", .scalar 25000000), (str% "WRITE", .scalar 100000000), (str% "m", .scalar 100), (str% "n", .scalar 5)]] := by
  decide

end Swc
