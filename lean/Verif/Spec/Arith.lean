/-
Independent specification of what weight equations mean: ordinary arithmetic on natural numbers.
Nothing here refers to the model's evaluator, printer or scope functions (only to the syntax of equations).
-/
import Verif.Model.Term

namespace Swc.Spec

open Swc

/-- The arithmetic value of an equation, for an assignment of natural numbers to variables. -/
def denote (ρ : Str → Nat) : SimpleTerm → Nat
  | .value n => n
  | .scalar n => n
  | .var x => ρ x
  | .add l r => denote ρ l + denote ρ r
  | .mul l r => denote ρ l * denote ρ r

/-- `Occurs x t`: the variable `x` is mentioned by the equation `t`. -/
inductive Occurs {T : Type} (x : Str) : Term T → Prop where
  | here : Occurs x (.var x)
  | addL {l r} : Occurs x l → Occurs x (.add l r)
  | addR {l r} : Occurs x r → Occurs x (.add l r)
  | mulL {l r} : Occurs x l → Occurs x (.mul l r)
  | mulR {l r} : Occurs x r → Occurs x (.mul l r)

/-- `Sub s t`: `s` is a sub-equation of `t` (or `t` itself). -/
inductive Sub {T : Type} : Term T → Term T → Prop where
  | refl {t} : Sub t t
  | addL {s l r} : Sub s l → Sub s (.add l r)
  | addR {s l r} : Sub s r → Sub s (.add l r)
  | mulL {s l r} : Sub s l → Sub s (.mul l r)
  | mulR {s l r} : Sub s r → Sub s (.mul l r)

/-- No intermediate result of evaluating `t` leaves u128. -/
def Fits (ρ : Str → Nat) (t : SimpleTerm) : Prop := ∀ s, Sub s t → denote ρ s < 2 ^ 128

/-- Literals of `t` are u128 numbers. -/
def LitsFit (t : SimpleTerm) : Prop := ∀ n, (Sub (.value n) t ∨ Sub (.scalar n) t) → n < 2 ^ 128

/-- The binding of `x` in the finite map `m` (first entry), independently of the model's `get`. -/
def binding {T : Type} (m : List (Str × T)) (x : Str) : Option T :=
  match m with
  | [] => none
  | (k, v) :: m => if x = k then some v else binding m x

/-- `t` is literally the number `n`. -/
def IsNum (t : SimpleTerm) (n : Nat) : Prop := t = .scalar n ∨ t = .value n

/-- The scope binds variables only to numbers. -/
def NumScope (ctx : SimpleScope) : Prop := ∀ x t, binding ctx x = some t → ∃ n, IsNum t n

/-- The scope gives every variable of `t` the number that the assignment `ρ` gives it. -/
def Assigns (ctx : SimpleScope) (ρ : Str → Nat) (t : SimpleTerm) : Prop :=
  ∀ x, Occurs x t → ∃ u, binding ctx x = some u ∧ IsNum u (ρ x)

/-- `y` is mentioned by the equation bound to `x`. -/
def Dep (ctx : SimpleScope) (x y : Str) : Prop := ∃ t, binding ctx x = some t ∧ Occurs y t

/-- `Reach ctx x y`: following bindings from `x` one arrives at `y` after at least one step. -/
inductive Reach (ctx : SimpleScope) : Str → Str → Prop where
  | step {x y} : Dep ctx x y → Reach ctx x y
  | trans {x y z} : Reach ctx x y → Reach ctx y z → Reach ctx x z

/-- The part of the scope reachable from `t` contains a cycle. -/
def CyclicFrom (ctx : SimpleScope) (t : SimpleTerm) : Prop :=
  ∃ x y, Occurs x t ∧ (x = y ∨ Reach ctx x y) ∧ Reach ctx y y

/-- The two-dimensional weight equation restricted to a dimension: every weight literal is replaced by its component. -/
def project (d : Dimension) : ChromaticTerm → SimpleTerm
  | .value w => .value (match d with | .time => w.time | .proof => w.proof)
  | .scalar n => .scalar n
  | .var x => .var x
  | .add l r => .add (project d l) (project d r)
  | .mul l r => .mul (project d l) (project d r)

/-- Value of a two-dimensional equation in one dimension. -/
def cvalue (d : Dimension) (ρ : Str → Nat) : ChromaticTerm → Nat
  | .value w => match d with | .time => w.time | .proof => w.proof
  | .scalar n => n
  | .var x => ρ x
  | .add l r => cvalue d ρ l + cvalue d ρ r
  | .mul l r => cvalue d ρ l * cvalue d ρ r

/-- Every monomial of the equation contains a number. -/
def Anchored : SimpleTerm → Prop
  | .value _ => True
  | .scalar _ => True
  | .var _ => False
  | .add l r => Anchored l ∧ Anchored r
  | .mul l r => Anchored l ∨ Anchored r

/-- The other dimension. -/
def other : Dimension → Dimension
  | .time => .proof
  | .proof => .time

end Swc.Spec
