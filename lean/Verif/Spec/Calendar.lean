/-
The calendar, and how dates are written in the United States.
-/
import Verif.Model.Basic

namespace Swc.Spec

open Swc

/-- Leap years. -/
def Leap (y : Nat) : Prop := (y % 4 = 0 ∧ y % 100 ≠ 0) ∨ y % 400 = 0

instance (y : Nat) : Decidable (Leap y) := by unfold Leap; infer_instance

/-- The lengths of the months. -/
def monthLengths (y : Nat) : List Nat := [31, if Leap y then 29 else 28, 31, 30, 31, 30, 31, 31, 30, 31, 30, 31]

/-- Month and day, both from 1, of the `n`-th day (from 0) of months of the given lengths. -/
def monthDay : List Nat → Nat → Nat × Nat
  | [], n => (1, n + 1)
  | k :: l, n => if n < k then (1, n + 1) else ((monthDay l (n - k)).1 + 1, (monthDay l (n - k)).2)

/-- Year, month and day of the `n`-th day (from 0) after the beginning of the year `y`.  The first number bounds the number of years. -/
def dateFrom : Nat → Nat → Nat → Nat × Nat × Nat
  | 0, y, n => (y, monthDay (monthLengths y) n)
  | f + 1, y, n => if n < (monthLengths y).sum then (y, monthDay (monthLengths y) n) else dateFrom f (y + 1) (n - (monthLengths y).sum)

/-- The date of a time, in milliseconds since the beginning of 1970 (UTC); only for times since then. -/
def dateOf (t : Int) : Nat × Nat × Nat := dateFrom (t / 86400000).toNat 1970 (t / 86400000).toNat

/-- A date in the United States: `new Date(t).toLocaleDateString('en-US', { timeZone: 'UTC' })`. -/
def american (t : Int) : Str :=
  natToStr (dateOf t).2.1 ++ str% "/" ++ (natToStr (dateOf t).2.2 ++ str% "/" ++ natToStr (dateOf t).1)

end Swc.Spec
