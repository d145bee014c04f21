/-
The derived orders of terms, scopes and name pairs are lawful total orders.
-/
import Verif.Model.Compare
import Verif.Lemmas.Sorted

namespace Swc

open Std

theorem cmpNat_eq {x y : Nat} : compare x y = .eq ↔ x = y := LawfulEqCmp.compare_eq_iff_eq
theorem cmpStr_eq {x y : Str} : compare x y = .eq ↔ x = y := LawfulEqCmp.compare_eq_iff_eq
theorem cmpNat_trans {x y z : Nat} (h : compare x y = .lt) (h' : compare y z = .lt) : compare x z = .lt := TransCmp.lt_trans h h'
theorem cmpStr_trans {x y z : Str} (h : compare x y = .lt) (h' : compare y z = .lt) : compare x z = .lt := TransCmp.lt_trans h h'
theorem cmpNat_swap {x y : Nat} : compare x y = (compare y x).swap := OrientedCmp.eq_swap
theorem cmpStr_swap {x y : Str} : compare x y = (compare y x).swap := OrientedCmp.eq_swap

/-- Build a `TransCmp` from antisymmetry, lawfulness and transitivity of `lt`. -/
theorem transCmp_of {α : Type} {cmp : α → α → Ordering} (hs : ∀ a b, cmp a b = (cmp b a).swap)
    (he : ∀ a b, cmp a b = .eq → a = b) (ht : ∀ a b c, cmp a b = .lt → cmp b c = .lt → cmp a c = .lt) : TransCmp cmp := by
  have hisle : ∀ {a b}, (cmp a b).isLE = true ↔ cmp a b = .lt ∨ cmp a b = .eq := by
    intro a b; cases cmp a b <;> simp
  refine { eq_swap := hs _ _, isLE_trans := ?_ }
  intro a b c h1 h2
  rw [hisle] at *
  rcases h1 with h1 | h1
  · rcases h2 with h2 | h2
    · exact .inl (ht _ _ _ h1 h2)
    · have := he _ _ h2; subst this; exact .inl h1
  · have := he _ _ h1; subst this; exact h2

namespace Term

theorem cmp_eq (a : SimpleTerm) : ∀ b, cmp a b = .eq ↔ a = b := by
  induction a with
  | value x => intro b; cases b <;> simp [cmp, variantIdx]
  | scalar x => intro b; cases b <;> simp [cmp, variantIdx]
  | var x => intro b; cases b <;> simp [cmp, variantIdx]
  | add l r ihl ihr => intro b; cases b <;> simp [cmp, variantIdx, Ordering.then_eq_eq, ihl, ihr]
  | mul l r ihl ihr => intro b; cases b <;> simp [cmp, variantIdx, Ordering.then_eq_eq, ihl, ihr]

theorem cmp_swap (a : SimpleTerm) : ∀ b, cmp a b = (cmp b a).swap := by
  induction a with
  | value x => intro b; cases b <;> simp only [cmp, variantIdx] <;> exact cmpNat_swap
  | scalar x => intro b; cases b <;> simp only [cmp, variantIdx] <;> exact cmpNat_swap
  | var x => intro b; cases b <;> simp only [cmp, variantIdx] <;> first | exact cmpNat_swap | exact cmpStr_swap
  | add l r ihl ihr =>
    intro b
    cases b <;> simp only [cmp, variantIdx]
    case add l' r' => rw [ihl, ihr, Ordering.swap_then]
    all_goals exact cmpNat_swap
  | mul l r ihl ihr =>
    intro b
    cases b <;> simp only [cmp, variantIdx]
    case mul l' r' => rw [ihl, ihr, Ordering.swap_then]
    all_goals exact cmpNat_swap

theorem then_lt_trans {α β : Type} {f : α → α → Ordering} {g : β → β → Ordering} {a b c : α} {x y z : β}
    (hf : ∀ u v, f u v = .eq ↔ u = v)
    (tf : f a b = .lt → f b c = .lt → f a c = .lt) (tg : g x y = .lt → g y z = .lt → g x z = .lt)
    (h1 : (f a b).then (g x y) = .lt) (h2 : (f b c).then (g y z) = .lt) : (f a c).then (g x z) = .lt := by
  rw [Ordering.then_eq_lt] at *
  rcases h1 with h1 | ⟨h1, h1'⟩
  · rcases h2 with h2 | ⟨h2, h2'⟩
    · exact .inl (tf h1 h2)
    · rw [hf] at h2; subst h2; exact .inl h1
  · rw [hf] at h1; subst h1
    rcases h2 with h2 | ⟨h2, h2'⟩
    · exact .inl h2
    · exact .inr ⟨h2, tg h1' h2'⟩

/-- Ordering by variant index when the constructors differ. -/
theorem cmp_idx {a b : SimpleTerm} (h : a.variantIdx ≠ b.variantIdx) : cmp a b = compare a.variantIdx b.variantIdx := by
  cases a <;> cases b <;> first | rfl | exact absurd rfl h

theorem cmp_lt_idx {a b : SimpleTerm} (h : cmp a b = .lt) : a.variantIdx ≤ b.variantIdx := by
  by_cases he : a.variantIdx = b.variantIdx
  · omega
  · rw [cmp_idx he, Nat.compare_eq_lt] at h; omega

theorem cmp_trans (a : SimpleTerm) : ∀ b c, cmp a b = .lt → cmp b c = .lt → cmp a c = .lt := by
  have key : ∀ a b c : SimpleTerm, (a.variantIdx = b.variantIdx → b.variantIdx = c.variantIdx → cmp a c = .lt) →
      cmp a b = .lt → cmp b c = .lt → cmp a c = .lt := by
    intro a b c h h1 h2
    have i1 := cmp_lt_idx h1
    have i2 := cmp_lt_idx h2
    by_cases e1 : a.variantIdx = b.variantIdx
    · by_cases e2 : b.variantIdx = c.variantIdx
      · exact h e1 e2
      · rw [cmp_idx (by omega), Nat.compare_eq_lt]; omega
    · rw [cmp_idx (by omega), Nat.compare_eq_lt]; omega
  induction a with
  | value x =>
    intro b c h1 h2
    refine key _ _ _ (fun e1 e2 => ?_) h1 h2
    cases b <;> simp [variantIdx] at e1
    cases c <;> simp [variantIdx] at e2
    exact cmpNat_trans h1 h2
  | scalar x =>
    intro b c h1 h2
    refine key _ _ _ (fun e1 e2 => ?_) h1 h2
    cases b <;> simp [variantIdx] at e1
    cases c <;> simp [variantIdx] at e2
    exact cmpNat_trans h1 h2
  | var x =>
    intro b c h1 h2
    refine key _ _ _ (fun e1 e2 => ?_) h1 h2
    cases b <;> simp [variantIdx] at e1
    cases c <;> simp [variantIdx] at e2
    exact cmpStr_trans h1 h2
  | add l r ihl ihr =>
    intro b c h1 h2
    refine key _ _ _ (fun e1 e2 => ?_) h1 h2
    cases b <;> simp [variantIdx] at e1
    cases c <;> simp [variantIdx] at e2
    exact then_lt_trans (fun u v => cmp_eq u v) (ihl _ _) (ihr _ _) h1 h2
  | mul l r ihl ihr =>
    intro b c h1 h2
    refine key _ _ _ (fun e1 e2 => ?_) h1 h2
    cases b <;> simp [variantIdx] at e1
    cases c <;> simp [variantIdx] at e2
    exact then_lt_trans (fun u v => cmp_eq u v) (ihl _ _) (ihr _ _) h1 h2

instance : TransCmp Term.cmp := transCmp_of cmp_swap (fun a b h => (cmp_eq a b).1 h) cmp_trans
instance : LawfulEqCmp Term.cmp where
  compare_self := (cmp_eq _ _).2 rfl
  eq_of_compare := fun h => (cmp_eq _ _).1 h

end Term

/-- Order of scope entries: key, then value. -/
def cmpEntry (p q : Str × SimpleTerm) : Ordering := (compare p.1 q.1).then (Term.cmp p.2 q.2)

theorem cmpEntry_eq (p q : Str × SimpleTerm) : cmpEntry p q = .eq ↔ p = q := by
  obtain ⟨a, b⟩ := p
  obtain ⟨c, d⟩ := q
  simp [cmpEntry, Ordering.then_eq_eq]

instance : TransCmp cmpEntry := transCmp_of
  (fun a b => by unfold cmpEntry; rw [cmpStr_swap, Term.cmp_swap, Ordering.swap_then])
  (fun a b h => (cmpEntry_eq a b).1 h)
  (fun a b c h1 h2 => Term.then_lt_trans (fun u v => cmpStr_eq) cmpStr_trans (Term.cmp_trans _ _ _) h1 h2)
instance : LawfulEqCmp cmpEntry where
  compare_self := (cmpEntry_eq _ _).2 rfl
  eq_of_compare := fun h => (cmpEntry_eq _ _).1 h

instance : TransCmp SimpleScope.cmp := inferInstanceAs (TransCmp (List.compareLex cmpEntry))
instance : LawfulEqCmp SimpleScope.cmp := inferInstanceAs (LawfulEqCmp (List.compareLex cmpEntry))

theorem cmpPair_eq (p q : Str × Str) : cmpPair p q = .eq ↔ p = q := by
  obtain ⟨a, b⟩ := p
  obtain ⟨c, d⟩ := q
  simp [cmpPair, Ordering.then_eq_eq]

instance : TransCmp cmpPair := transCmp_of
  (fun a b => by unfold cmpPair; rw [cmpStr_swap, cmpStr_swap (x := a.2), Ordering.swap_then])
  (fun a b h => (cmpPair_eq a b).1 h)
  (fun a b c h1 h2 => Term.then_lt_trans (fun u v => cmpStr_eq) cmpStr_trans cmpStr_trans h1 h2)
instance : LawfulEqCmp cmpPair where
  compare_self := (cmpPair_eq _ _).2 rfl
  eq_of_compare := fun h => (cmpPair_eq _ _).1 h

theorem cmpChar_lt {a b : Char} : compare a b = .lt ↔ a < b := by
  show compareOfLessAndEq a b = .lt ↔ _
  unfold compareOfLessAndEq
  split
  · simp_all
  · split <;> simp_all
theorem cmpChar_eq {a b : Char} : compare a b = .eq ↔ a = b := Std.LawfulEqCmp.compare_eq_iff_eq
theorem cmpStr_lt {a b : Str} : compare a b = .lt ↔ a < b := by
  induction a generalizing b with
  | nil => cases b with
    | nil => simp
    | cons y b => exact iff_of_true rfl (List.nil_lt_cons y b)
  | cons x a ih => cases b with
    | nil => exact iff_of_false (fun h => by cases h) (List.not_lt_nil _)
    | cons y b =>
      rw [List.cons_lt_cons_iff, ← ih, ← cmpChar_lt, ← cmpChar_eq]
      show List.compareLex compare _ _ = _ ↔ _
      rw [List.compareLex_cons_cons, Ordering.then_eq_lt]
      rfl

end Swc
