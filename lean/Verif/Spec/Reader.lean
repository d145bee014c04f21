/-
Independent specification of how a printed equation is read: usual precedence of `*` over `+`, parentheses, left-to-right.
A calculator-style reader with a stack of open parentheses; it does not know how the printer works.
-/
import Verif.Spec.Arith

namespace Swc.Spec

open Swc Term

/-- What has been read at one nesting level: the sum of the finished summands and the product of the factors of the current one. -/
structure Level where
  sum : Option SimpleTerm
  prod : Option SimpleTerm
  deriving DecidableEq

/-- `p * x`, where nothing read so far means just `x`. -/
def timesOpt : Option SimpleTerm → SimpleTerm → SimpleTerm
  | none, x => x
  | some p, x => .mul p x

/-- `s + x`, where nothing read so far means just `x`. -/
def plusOpt : Option SimpleTerm → SimpleTerm → SimpleTerm
  | none, x => x
  | some s, x => .add s x

/-- Reader state: current level, enclosing levels, and whether an operand is expected next. -/
structure RState where
  cur : Level
  outer : List Level
  want : Bool
  deriving DecidableEq

/-- Read an operand. -/
def operand (x : SimpleTerm) (s : RState) : Option RState :=
  if s.want then some { s with cur := { s.cur with prod := some (timesOpt s.cur.prod x) }, want := false } else none

/-- Read one token. -/
def readTok (s : RState) : Tok Nat → Option RState
  | .num n => operand (.scalar n) s
  | .wt n => operand (.value n) s
  | .ident v => operand (.var v) s
  | .times => if s.want then none else some { s with want := true }
  | .plus =>
    if s.want then none
    else match s.cur.prod with
      | none => none
      | some p => some { s with cur := ⟨some (plusOpt s.cur.sum p), none⟩, want := true }
  | .lpar => if s.want then some ⟨⟨none, none⟩, s.cur :: s.outer, true⟩ else none
  | .rpar =>
    if s.want then none
    else match s.cur.prod, s.outer with
      | some p, f :: o => operand (plusOpt s.cur.sum p) ⟨f, o, true⟩
      | _, _ => none

/-- Read a sequence of tokens. -/
def readToks : RState → List (Tok Nat) → Option RState
  | s, [] => some s
  | s, k :: ks => (readTok s k).bind fun s' => readToks s' ks

/-- Read a complete equation. -/
def readEquation (ks : List (Tok Nat)) : Option SimpleTerm :=
  (readToks ⟨⟨none, none⟩, [], true⟩ ks).bind fun s =>
    if s.want then none
    else match s.cur.prod, s.outer with
      | some p, [] => some (plusOpt s.cur.sum p)
      | _, _ => none

/-- Sanity of the specification itself: `a + b * (c + d) * 2` is read with the usual precedence. -/
example : readEquation [.ident (str% "a"), .plus, .ident (str% "b"), .times, .lpar, .ident (str% "c"), .plus, .ident (str% "d"),
      .rpar, .times, .num 2]
    = some (.add (.var (str% "a")) (.mul (.mul (.var (str% "b")) (.add (.var (str% "c")) (.var (str% "d")))) (.scalar 2))) := by
  decide

/-- The equation is zero for all variable values. -/
def Null (t : SimpleTerm) : Prop := ∀ ρ, denote ρ t = 0

/-- Literally the number `n`. -/
def isLit (n : Nat) : SimpleTerm → Prop
  | .value m => m = n
  | .scalar m => m = n
  | _ => False

/-- `Printable top t`: apart from literal zeros and ones, no product has an operand that is identically zero, and neither has a sum that
stands directly inside a product (`top = false`). -/
def Printable : Bool → SimpleTerm → Prop
  | top, .mul l r =>
    (isLit 1 l ∧ Printable top r)
    ∨ (¬ isLit 1 l ∧ isLit 1 r ∧ Printable top l)
    ∨ (¬ isLit 1 l ∧ ¬ isLit 1 r ∧ (isLit 0 l ∨ isLit 0 r))
    ∨ (¬ isLit 1 l ∧ ¬ isLit 1 r ∧ ¬ isLit 0 l ∧ ¬ isLit 0 r ∧ ¬ Null l ∧ ¬ Null r ∧ Printable false l ∧ Printable false r)
  | top, .add l r =>
    (isLit 0 l ∧ isLit 0 r)
    ∨ (isLit 0 l ∧ ¬ isLit 0 r ∧ Printable top r)
    ∨ (¬ isLit 0 l ∧ isLit 0 r ∧ Printable top l)
    ∨ (¬ isLit 0 l ∧ ¬ isLit 0 r ∧ Printable true l ∧ Printable true r ∧ (top = false → ¬ Null l ∧ ¬ Null r))
  | _, _ => True

/-- No literal of the equation is zero. -/
def NoZeroLit (t : SimpleTerm) : Prop := ¬ Sub (.value 0) t ∧ ¬ Sub (.scalar 0) t

end Swc.Spec
