/-
Independent specification of what an evaluation costs: how many equations are looked at one after the other, and how many calls are nested.
-/
import Verif.Spec.Arith
import Verif.Spec.Language
import Verif.Spec.Compare

namespace Swc.Spec

open Swc

/-- `n`, computed with 128 bits, is `u`: in a checked build it must fit, otherwise it wraps. -/
def In128 (b : Build) (n u : Nat) : Prop := u = n % 2 ^ 128 ∧ (b = .debug → n < 2 ^ 128)

/-- In the scope `s` the equation has the value `v`, which takes `n` evaluations, at most `d` of them nested. -/
inductive Evals (b : Build) (s : SimpleScope) : SimpleTerm → Nat → Nat → Nat → Prop
  | value {x} : Evals b s (.value x) x 1 1
  | scalar {x} : Evals b s (.scalar x) x 1 1
  | add {x y v w u n m d e} (hx : Evals b s x v n d) (hy : Evals b s y w m e) (hu : In128 b (v + w) u) :
    Evals b s (.add x y) u (n + m + 1) (max d e + 1)
  | mul {x y v w u n m d e} (hx : Evals b s x v n d) (hy : Evals b s y w m e) (hu : In128 b (v * w) u) :
    Evals b s (.mul x y) u (n + m + 1) (max d e + 1)
  | var {x t v n d} (ht : binding s x = some t) (hv : Evals b s t v n d) : Evals b s (.var x) v (n + 1) (d + 1)

/-- The parts of an equation; a variable counts twice, for itself and for the number it stands for. -/
def parts {T : Type} : Term T → Nat
  | .value _ => 1
  | .scalar _ => 1
  | .var _ => 2
  | .add l r => parts l + parts r + 1
  | .mul l r => parts l + parts r + 1

/-- The height of an equation; a variable counts twice, for itself and for the number it stands for. -/
def height {T : Type} : Term T → Nat
  | .value _ => 1
  | .scalar _ => 1
  | .var _ => 2
  | .add l r => max (height l) (height r) + 1
  | .mul l r => max (height l) (height r) + 1

mutual

/-- How deep an expression of the source is nested; a chain of calls nests to the left. -/
def nesting : Expr → Nat
  | .paren e => nesting e + 1
  | .cast e => nesting e + 1
  | .methodCall r _ args _ => max (nesting r) (nestings args) + 1
  | .call f args _ => max (nesting f) (nestings args) + 1
  | .binary l _ r => max (nesting l) (nesting r) + 1
  | _ => 1

/-- How deep the arguments are nested. -/
def nestings : List Expr → Nat
  | [] => 0
  | e :: l => max (nesting e) (nestings l)

end

mutual

/-- The parts of an expression of the source: calls, names, numbers, operators, parentheses, casts. -/
def pieces : Expr → Nat
  | .paren e => pieces e + 1
  | .cast e => pieces e + 1
  | .methodCall r _ args _ => pieces r + piecesAll args + 1
  | .call f args _ => pieces f + piecesAll args + 1
  | .binary l _ r => pieces l + pieces r + 1
  | _ => 1

/-- The parts of the arguments. -/
def piecesAll : List Expr → Nat
  | [] => 0
  | e :: l => pieces e + piecesAll l

end

/-- The comparison of two versions of a call takes `n` steps of evaluation: each version is evaluated once at every point (in the proof dimension without the
storage costs). -/
def Work (b : Build) (d : Dimension) (m : CompareMethod) (old new : Option SimpleExtrinsic) (n : Nat) : Prop :=
  ∃ (points : List SimpleScope) (steps : SimpleExtrinsic → SimpleScope → Nat), points.Nodup ∧ (∀ s, s ∈ points ↔ Corner d m old new s) ∧
    (∀ e, old = some e ∨ new = some e → ∀ s ∈ points, ∃ v deep, Evals b s (dropStorage d e).term v (steps e s) deep) ∧
    n = (points.map fun s => (old.elim 0 fun e => steps e s) + (new.elim 0 fun e => steps e s)).sum

end Swc.Spec
