/-
Independent specification of the text of an equation: how each token is spelled, and what the tokens mean.
-/
import Verif.Spec.Reader
import Verif.Spec.Output

namespace Swc.Spec

open Swc Term

/-- The spelling of a token; numbers are abbreviated (`12.35k`). -/
inductive Spelled : Tok Nat → Str → Prop
  | num {n : Nat} {s : Str} (h : n < 2 ^ 128 → GoodRendering scalarUnits n s) : Spelled (.num n) s
  | wt {n : Nat} {s : Str} (h : n < 2 ^ 128 → GoodRendering scalarUnits n s) : Spelled (.wt n) s
  | ident (v : Str) : Spelled (.ident v) v
  | plus : Spelled .plus (str% " + ")
  | times : Spelled .times (str% " * ")
  | lpar : Spelled .lpar (str% "(")
  | rpar : Spelled .rpar (str% ")")

/-- A text of the equation `t`: it spells an equation in the variables of `t` that, read with the usual precedence, has the value of `t` for all values
of the variables, provided that `t` is printable at all. -/
def EquationText (t : SimpleTerm) (text : Str) : Prop :=
  ∃ ks parts u, List.Forall₂ Spelled ks parts ∧ text = parts.flatten ∧ (∀ v, .ident v ∈ ks → Occurs v t) ∧ readEquation ks = some u ∧
    (Printable true t → ∀ ρ, denote ρ u = denote ρ t)

/-- The cell of an equation on the command line: `-` if there is none. -/
def EquationCell (t : Option SimpleTerm) (cell : Str) : Prop :=
  match t with
  | none => cell = str% "-"
  | some t => EquationText t cell

/-- The additional cells of a row with `--print-terms`. -/
def TermCells (printTerms : Bool) (scope : SimpleScope → Str) (c : TermChange) (cells : List Str) : Prop :=
  if printTerms then ∃ old new, cells = [old, new, scope c.scope] ∧ EquationCell c.old old ∧ EquationCell c.new new else cells = []

end Swc.Spec
