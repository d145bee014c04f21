/-
Paths are totally ordered.
-/
import Verif.Model.Path
import Verif.Lemmas.Order
import Verif.Lemmas.Sorted

namespace Swc

open Std

theorem compCmp_eq (a c : Comp) : Comp.cmp a c = .eq ↔ a = c := by
  cases a <;> cases c <;> simp [Comp.cmp, Comp.idx]

theorem compCmp_swap (a c : Comp) : Comp.cmp a c = (Comp.cmp c a).swap := by
  cases a <;> cases c <;> simp only [Comp.cmp, Comp.idx] <;> first | exact cmpStr_swap | rfl

theorem compCmp_trans (a c d : Comp) (h1 : Comp.cmp a c = .lt) (h2 : Comp.cmp c d = .lt) : Comp.cmp a d = .lt := by
  cases a <;> cases c <;> cases d <;> simp only [Comp.cmp, Comp.idx] at h1 h2 ⊢ <;>
    first | exact cmpStr_trans h1 h2 | rfl | exact absurd h1 (by decide) | exact absurd h2 (by decide)

theorem pathCmp_eq (a c : Path) : Path.cmp a c = .eq ↔ a = c := by
  induction a generalizing c with
  | nil => cases c <;> simp [Path.cmp]
  | cons x a ih => cases c with
    | nil => simp [Path.cmp]
    | cons y c => rw [Path.cmp, Ordering.then_eq_eq, compCmp_eq, ih, List.cons.injEq]

theorem pathCmp_swap (a c : Path) : Path.cmp a c = (Path.cmp c a).swap := by
  induction a generalizing c with
  | nil => cases c <;> rfl
  | cons x a ih => cases c with
    | nil => rfl
    | cons y c => rw [Path.cmp, Path.cmp, Ordering.swap_then, ← compCmp_swap, ← ih]

theorem pathCmp_trans (a c d : Path) (h1 : Path.cmp a c = .lt) (h2 : Path.cmp c d = .lt) : Path.cmp a d = .lt := by
  induction a generalizing c d with
  | nil => cases c with
    | nil => cases h1
    | cons y c => cases d with
      | nil => cases h2
      | cons z d => rfl
  | cons x a ih => cases c with
    | nil => cases h1
    | cons y c => cases d with
      | nil => cases h2
      | cons z d =>
        rw [Path.cmp] at h1 h2 ⊢
        exact Term.then_lt_trans compCmp_eq (compCmp_trans x y z) (ih c d) h1 h2

instance : TransCmp Path.cmp := transCmp_of pathCmp_swap (fun a c h => (pathCmp_eq a c).1 h) pathCmp_trans
instance : LawfulEqCmp Path.cmp where
  compare_self := fun {a} => (pathCmp_eq a a).2 rfl
  eq_of_compare := fun {a c} h => (pathCmp_eq a c).1 h

/-- Paths as a linear order. -/
structure PKey where
  p : Path

instance : LinearOrder PKey where
  le a c := Path.cmp a.p c.p ≠ .gt
  lt a c := Path.cmp a.p c.p = .lt
  le_refl a := by simp [(pathCmp_eq a.p a.p).2 rfl]
  le_trans a c d h1 h2 := by
    cases e1 : Path.cmp a.p c.p with
    | gt => exact absurd e1 h1
    | eq => rw [pathCmp_eq] at e1; rw [e1]; exact h2
    | lt =>
      cases e2 : Path.cmp c.p d.p with
      | gt => exact absurd e2 h2
      | eq => rw [pathCmp_eq] at e2; rw [← e2, e1]; simp
      | lt => rw [pathCmp_trans _ _ _ e1 e2]; simp
  lt_iff_le_not_ge a c := by
    rw [pathCmp_swap c.p a.p]
    cases Path.cmp a.p c.p <;> simp
  le_antisymm a c h1 h2 := by
    rw [pathCmp_swap c.p a.p] at h2
    have : Path.cmp a.p c.p = .eq := by
      cases h : Path.cmp a.p c.p <;> simp_all
    rw [pathCmp_eq] at this
    cases a; cases c; simp_all
  le_total a c := by
    rw [pathCmp_swap c.p a.p]
    cases Path.cmp a.p c.p <;> simp
  toDecidableLE := fun a c => inferInstanceAs (Decidable (Path.cmp a.p c.p ≠ .gt))

end Swc
