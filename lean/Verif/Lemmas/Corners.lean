/-
The loop over `0..2^n` in `extend_scoped_components` produces exactly the corners of the box of component instances.
-/
import Verif.Lemmas.Order
import Verif.Lemmas.Eval
import Verif.Lemmas.ResList
import Verif.Spec.Compare
import Verif.Props.Eval

namespace Swc

open Spec Std

/-- Every pattern of bits is the binary representation of a number below `2^n`. -/
theorem exists_bits (bs : List Bool) : ∃ i, i < 2 ^ bs.length ∧ ∀ k (h : k < bs.length), i.testBit k = bs[k] := by
  induction bs with
  | nil => exact ⟨0, by simp, fun k h => absurd h (by simp)⟩
  | cons b bs ih =>
    obtain ⟨i, hi, hb⟩ := ih
    refine ⟨2 * i + b.toNat, ?_, ?_⟩
    · rw [List.length_cons, Nat.pow_succ]
      have := Bool.toNat_le b
      omega
    · intro k h
      cases k with
      | zero =>
        cases b <;> simp [Nat.testBit_zero]
      | succ k =>
        rw [Nat.testBit_succ]
        have : (2 * i + b.toNat) / 2 = i := by
          have := Bool.toNat_le b
          omega
        rw [this, hb k (by simpa using h)]
        rfl

/-- One step of the inner loop. -/
def cornerStep (i : Nat) (sc : SimpleScope) (p : (Str × Nat × Nat) × Nat) : SimpleScope :=
  Scope.putVar sc p.1.1 (.scalar (if i.testBit p.2 then p.1.2.2 else p.1.2.1))

theorem cornerScope_eq (scope : SimpleScope) (i : Nat) (insts : List (Str × Nat × Nat)) :
    cornerScope scope i insts = insts.zipIdx.foldl (cornerStep i) scope := rfl

theorem sorted_cornerFold (i : Nat) (l : List ((Str × Nat × Nat) × Nat)) {scope : SimpleScope} (h : BMap.Sorted scope) :
    BMap.Sorted (l.foldl (cornerStep i) scope) := by
  induction l generalizing scope with
  | nil => exact h
  | cons p l ih => exact ih (BMap.sorted_insert h)

theorem binding_cornerFold_not_mem (i : Nat) (l : List ((Str × Nat × Nat) × Nat)) (scope : SimpleScope) (x : Str)
    (h : x ∉ l.map (·.1.1)) : binding (l.foldl (cornerStep i) scope) x = binding scope x := by
  induction l generalizing scope with
  | nil => rfl
  | cons p l ih =>
    simp only [List.map_cons, List.mem_cons, not_or] at h
    rw [List.foldl_cons, ih _ h.2, cornerStep, binding_putVar, if_neg h.1]

theorem binding_cornerFold_mem (i : Nat) (l : List ((Str × Nat × Nat) × Nat)) (scope : SimpleScope)
    (hn : (l.map (·.1.1)).Nodup) {p : (Str × Nat × Nat) × Nat} (h : p ∈ l) :
    binding (l.foldl (cornerStep i) scope) p.1.1 = some (.scalar (if i.testBit p.2 then p.1.2.2 else p.1.2.1)) := by
  induction l generalizing scope with
  | nil => cases h
  | cons q l ih =>
    rw [List.map_cons, List.nodup_cons] at hn
    rw [List.foldl_cons]
    rcases List.mem_cons.1 h with rfl | h
    · rw [binding_cornerFold_not_mem _ _ _ _ hn.1, cornerStep, binding_putVar, if_pos rfl]
    · exact ih _ hn.2 h

theorem zipIdx_keys (insts : List (Str × Nat × Nat)) (k : Nat) :
    (insts.zipIdx k).map (·.1.1) = insts.map (·.1) := by
  induction insts generalizing k with
  | nil => rfl
  | cons p l ih => simp [List.zipIdx_cons, ih]

/-- The scopes produced are exactly the (non-empty) corners. -/
theorem mem_cornerScopes (scope : SimpleScope) (hs : BMap.Sorted scope) (frees : List Str) (hn : frees.Nodup)
    (lo hi : Str → Nat) (s : SimpleScope) :
    s ∈ cornerScopes scope (frees.map fun f => (f, lo f, hi f)) ↔
      s ≠ [] ∧ IsCorner scope (· ∈ frees) lo hi s := by
  have hkeys : (frees.map fun f => (f, lo f, hi f)).map (·.1) = frees := by
    rw [List.map_map]; exact List.map_id' frees
  have hzk : ((frees.map fun f => (f, lo f, hi f)).zipIdx.map (·.1.1)) = frees := by rw [zipIdx_keys, hkeys]
  have hbind : ∀ i x (k : Nat), frees[k]? = some x →
      binding (cornerScope scope i (frees.map fun f => (f, lo f, hi f))) x
        = some (.scalar (if i.testBit k then hi x else lo x)) := by
    intro i x k hk
    rw [cornerScope_eq]
    have := binding_cornerFold_mem i (frees.map fun f => (f, lo f, hi f)).zipIdx scope (by rw [hzk]; exact hn)
      (p := ((x, lo x, hi x), k)) (by
        rw [List.mem_zipIdx_iff_getElem?]
        simp [hk])
    exact this
  have hnot : ∀ i x, x ∉ frees → binding (cornerScope scope i (frees.map fun f => (f, lo f, hi f))) x = binding scope x := by
    intro i x hx
    rw [cornerScope_eq]
    exact binding_cornerFold_not_mem _ _ _ _ (by rw [hzk]; exact hx)
  simp only [cornerScopes, List.mem_filter, List.mem_map, List.mem_range, List.length_map]
  constructor
  · rintro ⟨⟨i, _, rfl⟩, hne⟩
    refine ⟨fun h => by rw [h] at hne; simp [Scope.isEmpty] at hne, sorted_cornerFold _ _ hs, fun x => ⟨fun hx => ?_, hnot i x⟩⟩
    obtain ⟨k, hk⟩ := List.mem_iff_getElem?.1 hx
    rw [hbind i x k hk]
    cases i.testBit k
    · exact .inl rfl
    · exact .inr rfl
  · rintro ⟨hne, hsorted, hb⟩
    refine ⟨?_, by cases s; exact absurd rfl hne; rfl⟩
    obtain ⟨i, hi', hbits⟩ := exists_bits (frees.map fun f => decide (binding s f = some (.scalar (hi f))))
    rw [List.length_map] at hi'
    refine ⟨i, hi', ?_⟩
    apply BMap.ext (sorted_cornerFold _ _ hs) hsorted
    intro x
    rw [← binding_eq_get, ← binding_eq_get]
    by_cases hx : x ∈ frees
    · obtain ⟨k, hk⟩ := List.mem_iff_getElem?.1 hx
      have hlt : k < frees.length := by
        rcases Nat.lt_or_ge k frees.length with h | h
        · exact h
        · rw [List.getElem?_eq_none h] at hk; cases hk
      have hbit := hbits k (by simpa using hlt)
      rw [List.getElem_map] at hbit
      have hxk : frees[k] = x := by rw [List.getElem?_eq_getElem hlt] at hk; exact Option.some.inj hk
      rw [hxk] at hbit
      have hcb := hbind i x k hk
      rw [cornerScope_eq] at hcb
      rw [hcb, hbit]
      by_cases hh : binding s x = some (.scalar (hi x))
      · simp [hh]
      · rcases (hb x).1 hx with h | h
        · simp [h, show ¬ lo x = hi x from fun e => hh (by rw [h, e])]
        · exact absurd h hh
    · have := hnot i x hx
      rw [cornerScope_eq] at this
      rw [this, (hb x).2 hx]

/-! ### Instances of components -/

/-- The ranges consulted for a component, as in `core/src/lib.rs:582-583,627`. -/
def rangeOf (e : Option SimpleExtrinsic) (x : Str) : Option ComponentRange :=
  rangeGet (e.map fun e => e.compRanges.getD []) x

theorem lookup_eq_binding {T : Type} (m : List (Str × T)) (x : Str) : List.lookup x m = binding m x := (binding_eq_get m x).symm

theorem annotated_iff {old new : Option SimpleExtrinsic} {x : Str} {r : ComponentRange} :
    Annotated old new x r ↔ rangeOf old x = some r ∨ rangeOf new x = some r := by
  have h1 : ∀ o : Option SimpleExtrinsic, rangeOf o x = some r ↔ ∃ e m, o = some e ∧ e.compRanges = some m ∧ binding m x = some r := by
    intro o
    cases o with
    | none => simp [rangeOf, rangeGet]
    | some e =>
      simp only [rangeOf, rangeGet, Option.map_some, lookup_eq_binding]
      cases hm : e.compRanges with
      | none => simp [binding, hm]
      | some m => simp [hm]
  rw [h1, h1]
  constructor
  · rintro ⟨e, m, h | h, h2⟩
    · exact .inl ⟨e, m, h, h2⟩
    · exact .inr ⟨e, m, h, h2⟩
  · rintro (⟨e, m, h, h2⟩ | ⟨e, m, h, h2⟩)
    · exact ⟨e, m, .inl h, h2⟩
    · exact ⟨e, m, .inr h, h2⟩

/-- What `instance_component` returns, in terms of annotations. -/
theorem instanceComponent_spec (old new : Option SimpleExtrinsic) (x p e : Str) (s : Strategy) :
    let r := instanceComponent x (old.map fun e => e.compRanges.getD []) (new.map fun e => e.compRanges.getD []) s p e
    ((s.exact = true ∧ ¬ Unambiguous old new x) → ∃ m, r = .err m) ∧
    (¬ (s.exact = true ∧ ¬ Unambiguous old new x) →
      ∃ n, r = .ok n ∧ (s.minOrMax = .min → MinInst old new x n) ∧ (s.minOrMax = .max → MaxInst old new x n)) := by
  simp only [Unambiguous, MinInst, MaxInst, annotated_iff]
  unfold instanceComponent
  rw [show rangeGet (old.map fun e => e.compRanges.getD []) x = rangeOf old x from rfl,
    show rangeGet (new.map fun e => e.compRanges.getD []) x = rangeOf new x from rfl]
  cases rangeOf old x with
  | none =>
    cases rangeOf new x with
    | none =>
      obtain ⟨ex, mm⟩ := s
      cases ex <;> cases mm <;> simp
    | some r =>
      obtain ⟨ex, mm⟩ := s
      cases ex <;> cases mm <;> simp [ComponentRange.pick]
  | some r =>
    cases rangeOf new x with
    | none =>
      obtain ⟨ex, mm⟩ := s
      cases ex <;> cases mm <;> simp [ComponentRange.pick]
    | some r' =>
      obtain ⟨ex, mm⟩ := s
      by_cases hr : r = r'
      · subst hr
        cases ex <;> cases mm <;> simp [ComponentRange.pick]
      · have hr' : ¬ r' = r := fun h => hr h.symm
        cases ex <;> cases mm <;> simp [hr]
        · right
          refine ⟨Nat.le_total _ _, ?_⟩
          rintro q (rfl | rfl)
          · exact .inl (Nat.le_refl _)
          · exact .inr (Nat.le_refl _)
        · right
          refine ⟨Nat.le_total _ _, ?_⟩
          rintro q (rfl | rfl)
          · exact .inl (Nat.le_refl _)
          · exact .inr (Nat.le_refl _)
        · exact hr'
        · exact hr'

end Swc
