/-
Independent specification of what it means that a call is not mentioned in what the command line tool prints.
-/
import Verif.Spec.Printed

namespace Swc.Spec

open Swc

/-- From `o` to `n` it grows by at most `T` percent, up to a hundredth of a percentage point. -/
def GrowsAtMost (T : ℚ) (o n : Nat) : Prop := (n : ℚ) ≤ o * (1 + (T + 1 / 100) / 100)

/-- What is printed mentions the call `p::e`: a row of the table has the name of the file and that of the call, or a line of the comma separated
values has. -/
def PrintedFor (nm : Str → Str) (p e : Str) : Shown → Prop
  | .nothing => False
  | .table t _ => ∃ row ∈ t.rows, row.take 2 = [nm p, e]
  | .csv text => ∃ line ∈ readCsv text, line.take 2 = [p, e]

/-- The method looks for the largest change. -/
def LooksForWorst (m : CompareMethod) : Prop := m = .guessWorst ∨ m = .exactWorst

/-- The components of the two versions can be told apart without the underscores in their names, from each other and from the storage costs. -/
def PlainNames (x y : GenFn) : Prop :=
  ∀ c, Param (some x) (some y) c → c.filter (· ≠ '_') ≠ str% "READ" ∧ c.filter (· ≠ '_') ≠ str% "WRITE" ∧
    ∀ c', Param (some x) (some y) c' → c.filter (· ≠ '_') = c'.filter (· ≠ '_') → c = c'

end Swc.Spec
