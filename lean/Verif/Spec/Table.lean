/-
Independent specification of printed tables: how a reader finds the cells in the text.
-/
import Verif.Spec.Output
import Verif.Spec.Equation
import Verif.Model.Cli

namespace Swc.Spec

open Swc

/-- A text that is not mistaken for something else when it stands in a cell: no bar, no line break, no space at its end. -/
structure CleanCell (c : Str) : Prop where
  bar : '|' ∉ c
  line : '\n' ∉ c
  last : c.getLast? ≠ some ' '

/-- Without the spaces at its end. -/
def stripEnd (s : Str) : Str := (s.reverse.dropWhile (· = ' ')).reverse

/-- The cells of a line: what stands between bars, without the space in front and the spaces behind. -/
def readRow (line : Str) : List Str := ((cut '|' line).drop 1).dropLast.map fun p => stripEnd (p.drop 1)

/-- A line with cells begins with a bar and a space, other than the lines between rows. -/
def hasCells (line : Str) : Bool := (str% "| ").isPrefixOf line

/-- Reading a table: the cells of all lines that have some. -/
def readTable (text : Str) : List (List Str) := ((cut '\n' text).filter hasCells).map readRow

/-- A row with empty cells at its end, to the number of columns. -/
def filled (n : Nat) (row : List Str) : List Str := row ++ List.replicate (n - row.length) []

/-- `s` is seen as `text` on a terminal, and leaves its colour and state as they were. -/
def SeenAs (text s : Str) : Prop := visible s = text ∧ (terminal .normal 0 s).2 = (0, .normal)

/-- A text for a cell that a terminal shows as it is. -/
structure Legible (c : Str) : Prop extends CleanCell c where
  colour : Char.ofNat 27 ∉ c

/-- The variables of an equation have names that can stand in a cell. -/
def LegibleVars (t : Option SimpleTerm) : Prop := ∀ u, t = some u → ∀ x, Occurs x u → x ≠ [] ∧ Legible x

/-- The names and variables of a report can stand in cells. -/
structure LegibleReport (env : PrintEnv) (f : FormatParams) (g : Str → Str) (diff : List ExtrinsicDiff) : Prop where
  files : ∀ e ∈ diff, Legible (g e.file)
  names : ∀ e ∈ diff, Legible e.name
  terms : f.printTerms = true → ∀ e ∈ diff, ∀ c, numbers e.change = some c → LegibleVars c.old ∧ LegibleVars c.new ∧ Legible (env.debugScope c.scope)

example : readTable (str% "| File | New |\n|------|-----|\n| a.rs |  x  |\n") = [[str% "File", str% "New"], [str% "a.rs", str% " x"]] := by decide +kernel

example : readTable (str% "+---+---+\n| a | b |\n+=======+\n| c |   |\n|---+---|\n|   | d |\n+---+---+") =
    [[str% "a", str% "b"], [str% "c", []], [[], str% "d"]] := by decide +kernel

end Swc.Spec
