/-
Independent specification of decimal notation: a reader for printed quantities such as `12.34ms`.
-/
import Mathlib.Data.Rat.Floor
import Verif.Model.Basic

namespace Swc.Spec

open Swc

/-- Value of a decimal digit. -/
def digitVal (c : Char) : Option Nat := if c.isDigit then some (c.toNat - 48) else none

/-- Read the digits of a number, most significant first, on top of what has been read already. -/
def readDigits (acc : Nat) : Str → Option Nat
  | [] => some acc
  | c :: s => match digitVal c with
    | some d => readDigits (10 * acc + d) s
    | none => none

/-- Read a natural number: at least one digit, nothing else. -/
def readNat : Str → Option Nat
  | [] => none
  | c :: s => readDigits 0 (c :: s)

/-- Read a decimal number `123` or `123.45`. -/
def readDec (s : Str) : Option ℚ :=
  match s.dropWhile (· ≠ '.') with
  | [] => (readNat s).map fun n => (n : ℚ)
  | _ :: frac =>
    match readNat (s.takeWhile (· ≠ '.')), readNat frac with
    | some i, some f => some (i + f / 10 ^ frac.length)
    | _, _ => none

/-- A character of a number. -/
def isNumChar (c : Char) : Bool := c.isDigit || c = '.'

/-- Read a number followed by a unit. -/
def readQuantity (s : Str) : Option (ℚ × Str) :=
  (readDec (s.takeWhile isNumChar)).map fun q => (q, s.dropWhile isNumChar)

/-- Number of digits after the decimal point. -/
def fracDigits (s : Str) : Nat := ((s.takeWhile isNumChar).dropWhile (· ≠ '.')).length - 1

/-- Decimal prefixes for plain numbers. -/
def scalarUnits : List (Str × Nat) := [(str% "", 1), (str% "K", 10 ^ 3), (str% "M", 10 ^ 6), (str% "G", 10 ^ 9), (str% "T", 10 ^ 12)]
/-- Units of time, in pico-seconds. -/
def timeUnits : List (Str × Nat) :=
  [(str% "ps", 1), (str% "ns", 10 ^ 3), (str% "us", 10 ^ 6), (str% "ms", 10 ^ 9), (str% "s", 10 ^ 12)]
/-- Units of size, in bytes. -/
def sizeUnits : List (Str × Nat) := [(str% "B", 1), (str% "KiB", 2 ^ 10), (str% "MiB", 2 ^ 20), (str% "GiB", 2 ^ 30)]

/-- `s` is a good rendering of the number `w`: it reads as a number `q` and a unit `u` of the table, the largest one not exceeding
`w` (or the smallest unit at all); if that is the unit 1 the number is exact, otherwise it has two fractional digits and is
within half a hundredth (plus the rounding error of binary64, 1 part in 2^51) of the true quotient. -/
def GoodRendering (units : List (Str × Nat)) (w : Nat) (s : Str) : Prop :=
  ∃ q name u, readQuantity s = some (q, name) ∧ (name, u) ∈ units ∧ (u ≤ w ∨ u = 1) ∧
    (∀ name' u', (name', u') ∈ units → u' ≤ w → u' ≤ u) ∧
    (u = 1 → q = w) ∧
    (u ≠ 1 → fracDigits s = 2 ∧ |q - (w : ℚ) / u| ≤ 1 / 200 + (w : ℚ) / u / 2 ^ 51)

end Swc.Spec
