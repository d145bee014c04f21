/-
Independent specification of what is shown: coloured HTML paragraphs, a terminal that interprets colour sequences, and a reader of
comma separated values.
-/
import Verif.Model.Compare
import Verif.Spec.Decimal
import Verif.Spec.Arith

namespace Swc.Spec

open Swc

/-- The numbers of a row that exists in both versions are as a comparison computes them: two `u128` weights and their percentage. -/
def Computed (c : TermChange) : Prop :=
  ∃ o n, c.oldV = some o ∧ c.newV = some n ∧ o < 2 ^ 128 ∧ n < 2 ^ 128 ∧ c.percent = percent o n

/-- An HTML paragraph of one colour. -/
def Para (color text s : Str) : Prop := s = str% "<p style='color:" ++ color ++ str% "'>" ++ text ++ str% "</p>"

/-- `s` is a decimal number with two fractional digits within half a hundredth of `q`. -/
def ShowsQuantity (q : ℚ) (s : Str) : Prop :=
  ∃ v, readDec s = some v ∧ fracDigits s = 2 ∧ |v - q| ≤ 1 / 200

/-- The table of units of a dimension. -/
def unitTable : Dimension → List (Str × Nat)
  | .time => timeUnits
  | .proof => sizeUnits

/-- State of the terminal while it reads a control sequence. -/
inductive TermState where
  | normal
  | escape
  | number (n : Nat)
  deriving DecidableEq

/-- A terminal that understands `ESC [ n m` (set the colour to `n`, 0 being the default) and shows every other character.  Result: the
characters shown, with their colours, and the colour and state at the end. -/
def terminal : TermState → Nat → Str → List (Char × Nat) × Nat × TermState
  | st, colour, [] => ([], colour, st)
  | .normal, colour, c :: s =>
    if c = Char.ofNat 27 then terminal .escape colour s
    else let r := terminal .normal colour s; ((c, colour) :: r.1, r.2)
  | .escape, colour, c :: s => if c = '[' then terminal (.number 0) colour s else terminal .normal colour s
  | .number n, colour, c :: s =>
    match digitVal c with
    | some d => terminal (.number (10 * n + d)) colour s
    | none => if c = 'm' then terminal .normal n s else terminal .normal colour s

/-- `s` shows as `text`, all of it in colour number `colour`, and leaves the terminal in its initial state. -/
def ShowsAs (colour : Nat) (text s : Str) : Prop := terminal .normal 0 s = (text.map fun c => (c, colour), 0, .normal)

/-- The characters a terminal shows. -/
def visible (s : Str) : Str := (terminal .normal 0 s).1.map (·.1)

/-- Colour numbers of ANSI terminals. -/
def red : Nat := 31
/-- Colour numbers of ANSI terminals. -/
def green : Nat := 32
/-- Colour numbers of ANSI terminals. -/
def white : Nat := 37

/-- Split a text at every occurrence of a character. -/
def cut (sep : Char) : Str → List Str
  | [] => [[]]
  | c :: s => if c = sep then [] :: cut sep s
    else match cut sep s with
      | f :: fs => (c :: f) :: fs
      | [] => [[c]]

/-- Lines and columns of comma separated values. -/
def readCsv (s : Str) : List (List Str) := (cut '\n' s).map (cut ',')

/-- The cell of a weight: empty if there is none. -/
def WeightCell (unit : Dimension) (v : Option Nat) (cell : Str) : Prop :=
  match v with
  | none => cell = []
  | some v => GoodRendering (unitTable unit) v cell

/-- The text of a relative change: a word for rows without two different versions, otherwise a signed number with two digits after the
point, within half a hundredth of the percentage, and padded to at least five characters. -/
def ChangeText (k : RelativeChange) (p : F64) (text : Str) : Prop :=
  match k with
  | .unchanged => text = str% "Unchanged"
  | .added => text = str% "Added"
  | .removed => text = str% "Removed"
  | .changed => match p with
    | .nan => text = str% "  NaN"
    | .pinf => text = str% " +inf"
    | .ninf => text = str% " -inf"
    | .fin q => ∃ pad num, text = List.replicate pad ' ' ++ [if q < 0 then '-' else '+'] ++ num ∧ ShowsQuantity |q| num ∧ 5 ≤ text.length

/-- The colour of a relative change on the command line. -/
def changeColour (k : RelativeChange) (p : F64) : Nat :=
  match k with
  | .unchanged => 0
  | .added => red
  | .removed => green
  | .changed => match p with
    | .nan => white
    | .pinf => red
    | .ninf => green
    | .fin q => if q < 0 then green else if q = 0 then white else red

/-- The cells of a row that shows the numbers `c` of the call `name` of `file`. -/
def RowFor (unit : Dimension) (noColor : Bool) (file name : Str) (c : TermChange) (cells : List Str) : Prop :=
  ∃ old new pct text, cells = [file, name, old, new, pct] ∧ WeightCell unit c.oldV old ∧ WeightCell unit c.newV new ∧
    ChangeText c.change c.percent text ∧
    (if noColor then pct = text else ShowsAs (changeColour c.change c.percent) text pct)

/-- The numbers of an entry, unless it is an error. -/
def numbers : TermDiff → Option TermChange
  | .changed c => some c
  | .warning c _ => some c
  | .failed _ => none

/-- The weights of an entry are `u128` numbers. -/
def U128Weights (e : ExtrinsicDiff) : Prop :=
  ∀ c, numbers e.change = some c → (∀ v, c.oldV = some v → v < 2 ^ 128) ∧ (∀ v, c.newV = some v → v < 2 ^ 128)

/-- No separator of CSV. -/
def SepFree (s : Str) : Prop := ∀ c ∈ s, c ≠ ',' ∧ c ≠ '\n'

/-- Names of files and calls without commas and line ends. -/
def CleanNames (diff : List ExtrinsicDiff) : Prop := ∀ e ∈ diff, SepFree e.file ∧ SepFree e.name

/-- Variable names without commas and line ends. -/
def CleanVars (t : Option SimpleTerm) : Prop := ∀ u, t = some u → ∀ x, Occurs x u → SepFree x

end Swc.Spec
