/-
Software model of IEEE-754 binary64 (`f64`), as used by `percent`, sorting, filtering and formatting.

Values are exact rationals or one of the specials; every arithmetic operation is computed exactly and rounded to nearest, ties to even,
with gradual underflow and overflow to infinity.  Simplification: the two zeros are identified (`fin 0`); a quotient by zero
is treated as a quotient by `+0`, which is the only zero that occurs as a divisor in the code base (`u128 as f64`).
-/
import Mathlib.Data.Int.Log
import Mathlib.Data.Rat.Floor
import Verif.Model.Basic

namespace Swc

/-- A binary64 value. -/
inductive F64 where
  | nan
  | ninf
  | pinf
  | fin (q : ℚ)
  deriving DecidableEq

namespace F64

/-- Round to the nearest integer, ties to even. -/
def rne (x : ℚ) : ℤ :=
  let f := ⌊x⌋
  let d := x - f
  if d < 1 / 2 then f
  else if 1 / 2 < d then f + 1
  else if f % 2 = 0 then f else f + 1

/-- Exponent of the unit in the last place at `q ≠ 0`: 53 significant bits, at least `2^-1074`. -/
def ulpExp (q : ℚ) : ℤ := max (Int.log 2 |q| - 52) (-1074)

/-- Rounding with unbounded range. -/
def rndQ (q : ℚ) : ℚ := if q = 0 then 0 else (rne (q / (2 : ℚ) ^ ulpExp q) : ℚ) * (2 : ℚ) ^ ulpExp q

/-- Rounding of an exact result to binary64. -/
def rnd (q : ℚ) : F64 :=
  if (2 : ℚ) ^ (1024 : ℕ) ≤ rndQ q then pinf
  else if rndQ q ≤ -(2 : ℚ) ^ (1024 : ℕ) then ninf
  else fin (rndQ q)

/-- `n as f64` for an unsigned integer. -/
def ofNat (n : Nat) : F64 := rnd n

/-- Negation. -/
def neg : F64 → F64
  | nan => nan
  | ninf => pinf
  | pinf => ninf
  | fin q => fin (-q)

/-- Addition. -/
def add : F64 → F64 → F64
  | nan, _ => nan
  | _, nan => nan
  | pinf, ninf => nan
  | ninf, pinf => nan
  | pinf, _ => pinf
  | _, pinf => pinf
  | ninf, _ => ninf
  | _, ninf => ninf
  | fin a, fin b => rnd (a + b)

/-- Subtraction. -/
def sub (a b : F64) : F64 := add a (neg b)

/-- Infinity with the sign of `q`; NaN for zero. -/
def infSign (q : ℚ) : F64 := if 0 < q then pinf else if q < 0 then ninf else nan

/-- Multiplication. -/
def mul : F64 → F64 → F64
  | nan, _ => nan
  | _, nan => nan
  | fin a, fin b => rnd (a * b)
  | pinf, fin b => infSign b
  | fin a, pinf => infSign a
  | ninf, fin b => neg (infSign b)
  | fin a, ninf => neg (infSign a)
  | pinf, pinf => pinf
  | ninf, ninf => pinf
  | pinf, ninf => ninf
  | ninf, pinf => ninf

/-- Division (see the header for division by zero). -/
def div : F64 → F64 → F64
  | nan, _ => nan
  | _, nan => nan
  | fin a, fin b => if b = 0 then infSign a else rnd (a / b)
  | fin _, pinf => fin 0
  | fin _, ninf => fin 0
  | pinf, fin b => if b < 0 then ninf else pinf
  | ninf, fin b => if b < 0 then pinf else ninf
  | _, _ => nan

/-- Absolute value. -/
def abs : F64 → F64
  | nan => nan
  | ninf => pinf
  | pinf => pinf
  | fin q => fin |q|

/-- `a < b`; false if one is NaN. -/
def lt : F64 → F64 → Bool
  | nan, _ => false
  | _, nan => false
  | ninf, ninf => false
  | ninf, _ => true
  | _, ninf => false
  | pinf, _ => false
  | _, pinf => true
  | fin a, fin b => decide (a < b)

/-- `a == b`; false if one is NaN. -/
def feq : F64 → F64 → Bool
  | nan, _ => false
  | _, nan => false
  | ninf, ninf => true
  | pinf, pinf => true
  | fin a, fin b => decide (a = b)
  | _, _ => false

/-- `a <= b`. -/
def le (a b : F64) : Bool := lt a b || feq a b

/-- Truncation toward zero. -/
def truncQ (q : ℚ) : ℤ := if 0 ≤ q then ⌊q⌋ else -⌊-q⌋

/-- Smallest `i128`. -/
def i128Min : ℤ := -2 ^ 127
/-- Largest `i128`. -/
def i128Max : ℤ := 2 ^ 127 - 1

/-- `x as i128`: truncates, saturates, NaN gives 0. -/
def toI128 : F64 → ℤ
  | nan => 0
  | ninf => i128Min
  | pinf => i128Max
  | fin q => max i128Min (min i128Max (truncQ q))

/-- `format!("{:.2}", x)` of a finite non-negative value: exact decimal expansion, rounded to two places, ties to even. -/
def fmt2Nonneg (q : ℚ) : Str :=
  let n := (rne (q * 100)).toNat
  natToStr (n / 100) ++ str% "." ++ natToStr (n % 100 / 10) ++ natToStr (n % 10)

/-- `format!("{:.2}", x)`.  (A value in `(-0.005, 0)` prints `-0.00`, like Rust.) -/
def fmt2 : F64 → Str
  | nan => str% "NaN"
  | pinf => str% "inf"
  | ninf => str% "-inf"
  | fin q => if q < 0 then str% "-" ++ fmt2Nonneg (-q) else fmt2Nonneg q

end F64
end Swc
