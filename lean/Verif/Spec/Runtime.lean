/-
Independent specification: what the body of a weight function means when the Substrate runtime executes it.

Two readings of a body are given: `weight` for two-dimensional weights (Substrate since `Weight::from_parts`) and `legacy` for the
one-dimensional ones before (`type Weight = u64`, later a struct with the single field `ref_time`).  Both are parametric in the
arithmetic: `exact` is unbounded, `saturating M` caps every intermediate result at `M` (the runtime uses `M = u64::MAX`).
An expression outside the described language has no meaning (`none`).
-/
import Verif.Model.Syntax
import Verif.Spec.Decimal

namespace Swc.Spec

open Swc

/-- The arithmetic used for literals, `saturating_add` and `saturating_mul`. -/
structure Arith where
  lit : Nat → Option Nat
  add : Nat → Nat → Nat
  mul : Nat → Nat → Nat

/-- Unbounded arithmetic. -/
def exact : Arith := ⟨some, (· + ·), (· * ·)⟩
/-- Saturating arithmetic; a literal above the maximum does not compile. -/
def saturating (M : Nat) : Arith := ⟨fun n => if n ≤ M then some n else none, fun a b => min (a + b) M, fun a b => min (a * b) M⟩

/-- What the runtime supplies: component values (function arguments and constants, by name) and the costs of a storage read and write. -/
structure Runtime where
  comp : Str → Nat
  read : Nat
  write : Nat

/-- The costs as variables of an equation: storage accesses cost time only. -/
def Runtime.env (rt : Runtime) (d : Dimension) (x : Str) : Nat :=
  if x = str% "READ" then (match d with | .time => rt.read | .proof => 0)
  else if x = str% "WRITE" then (match d with | .time => rt.write | .proof => 0)
  else rt.comp x

/-- Coordinate of a weight. -/
def coord (d : Dimension) (w : Weight) : Nat := match d with | .time => w.time | .proof => w.proof

/-- The path is `…::f`, qualified by at least one segment. -/
def isFn (f : Str) (segs : List Str) : Bool := 2 ≤ segs.length && segs.getLast? == some f

/-- `T::DbWeight::get()`, `…::RocksDbWeight::get()` or `…::ParityDbWeight::get()`. -/
def isDb : Expr → Bool
  | .call (.path segs) [] _ =>
    segs == [str% "T", str% "DbWeight", str% "get"]
      || (segs.getLast? == some (str% "get")
        && (segs.dropLast.getLast? == some (str% "RocksDbWeight") || segs.dropLast.getLast? == some (str% "ParityDbWeight")))
  | _ => false

/-- A named value: a component or a constant.  The names READ and WRITE are taken by the tool itself. -/
def named (rt : Runtime) (segs : List Str) : Option Nat :=
  let x := joinStr (str% "::") segs
  if x = str% "READ" ∨ x = str% "WRITE" then none else some (rt.comp x)

/-- Value of a number (`u32`/`u64`) expression. -/
def num (A : Arith) (rt : Runtime) : Expr → Option Nat
  | .lit (.int digits) => (readNat digits).bind A.lit
  | .paren e => num A rt e
  | .cast e => num A rt e
  | .path segs => named rt segs
  | .methodCall r m [] _ => if m = str% "into" then num A rt r else none
  | .methodCall r m [a] _ =>
    if m = str% "saturating_add" then do some (A.add (← num A rt r) (← num A rt a))
    else if m = str% "saturating_mul" then do some (A.mul (← num A rt r) (← num A rt a))
    else none
  | _ => none

/-- Value of a two-dimensional weight expression. -/
def weight (A : Arith) (rt : Runtime) : Expr → Option Weight
  | .paren e => weight A rt e
  | .call (.path segs) [] _ => if isFn (str% "zero") segs then some ⟨0, 0⟩ else none
  | .call (.path segs) [a] _ =>
    if isFn (str% "from_ref_time") segs then do some ⟨← num A rt a, 0⟩
    else if isFn (str% "from_proof_size") segs then do some ⟨0, ← num A rt a⟩
    else none
  | .call (.path segs) [a, c] _ =>
    if isFn (str% "from_parts") segs then do some ⟨← num A rt a, ← num A rt c⟩ else none
  | .methodCall r m [] _ => if m = str% "into" then weight A rt r else none
  | .methodCall r m [a] _ =>
    if m = str% "reads" ∧ isDb r then do some ⟨A.mul (← num A rt a) rt.read, 0⟩
    else if m = str% "writes" ∧ isDb r then do some ⟨A.mul (← num A rt a) rt.write, 0⟩
    else if m = str% "saturating_add" then do
      let x ← weight A rt r
      let y ← weight A rt a
      some ⟨A.add x.time y.time, A.add x.proof y.proof⟩
    else if m = str% "saturating_mul" then do
      let x ← weight A rt r
      let n ← num A rt a
      some ⟨A.mul x.time n, A.mul x.proof n⟩
    else none
  | _ => none

/-- Value of a one-dimensional weight expression: numbers, storage accesses, `from_ref_time`, `ref_time()` and `zero()`. -/
def legacy (A : Arith) (rt : Runtime) : Expr → Option Nat
  | .lit (.int digits) => (readNat digits).bind A.lit
  | .paren e => legacy A rt e
  | .cast e => legacy A rt e
  | .path segs => named rt segs
  | .call (.path segs) [] _ => if isFn (str% "zero") segs then some 0 else none
  | .call (.path segs) [a] _ => if isFn (str% "from_ref_time") segs then legacy A rt a else none
  | .methodCall r m [] _ => if m = str% "into" ∨ m = str% "ref_time" then legacy A rt r else none
  | .methodCall r m [a] _ =>
    if m = str% "reads" ∧ isDb r then do some (A.mul (← legacy A rt a) rt.read)
    else if m = str% "writes" ∧ isDb r then do some (A.mul (← legacy A rt a) rt.write)
    else if m = str% "saturating_add" then do some (A.add (← legacy A rt r) (← legacy A rt a))
    else if m = str% "saturating_mul" then do some (A.mul (← legacy A rt r) (← legacy A rt a))
    else none
  | _ => none

/-- Every product in the number expression has a literal factor. -/
def Anchor : Expr → Prop
  | .lit _ => True
  | .paren e => Anchor e
  | .cast e => Anchor e
  | .methodCall r m [a] _ => if m = str% "saturating_mul" then Anchor r ∨ Anchor a else Anchor r ∧ Anchor a
  | .methodCall r _ [] _ => Anchor r
  | _ => False

/-- The arguments of `from_parts`, `from_ref_time` and `from_proof_size` in the weight expression are anchored. -/
def Anchored2 : Expr → Prop
  | .paren e => Anchored2 e
  | .call _ [a] _ => Anchor a
  | .call _ [a, c] _ => Anchor a ∧ Anchor c
  | .methodCall r m [a] _ =>
    if m = str% "saturating_add" then Anchored2 r ∧ Anchored2 a else if m = str% "saturating_mul" then Anchored2 r else True
  | .methodCall r _ [] _ => Anchored2 r
  | _ => True

/-- A number expression without literals. -/
def NoLit : Expr → Prop
  | .paren e => NoLit e
  | .cast e => NoLit e
  | .path _ => True
  | .methodCall r _ [] _ => NoLit r
  | .methodCall r _ [a] _ => NoLit r ∧ NoLit a
  | _ => False

/-- The numbers by which weights are multiplied contain no literals. -/
def FactorsNoLit : Expr → Prop
  | .paren e => FactorsNoLit e
  | .methodCall r m [a] _ =>
    if m = str% "saturating_add" then FactorsNoLit r ∧ FactorsNoLit a
    else if m = str% "saturating_mul" then FactorsNoLit r ∧ NoLit a else True
  | .methodCall r _ [] _ => FactorsNoLit r
  | _ => True

/-! ### The templates of the Substrate benchmarking tool -/

/-- A literal, possibly in parentheses or cast (`(12_345 as Weight)`). -/
inductive TLit (M : Nat) : Expr → Prop
  | lit {digits : Str} {n : Nat} (h : readNat digits = some n) (hn : n ≤ M) : TLit M (.lit (.int digits))
  | paren {e : Expr} (h : TLit M e) : TLit M (.paren e)
  | cast {e : Expr} (h : TLit M e) : TLit M (.cast e)

/-- A component: `c.into()` or `(c as u64)`. -/
inductive TComp : Expr → Prop
  | path {c : Str} (h1 : c ≠ str% "READ") (h2 : c ≠ str% "WRITE") : TComp (.path [c])
  | into {e : Expr} {trailing : Bool} (h : TComp e) : TComp (.methodCall e (str% "into") [] trailing)
  | paren {e : Expr} (h : TComp e) : TComp (.paren e)
  | cast {e : Expr} (h : TComp e) : TComp (.cast e)

/-- Number of accesses: a literal, or a literal times a component. -/
inductive TCount (M : Nat) : Expr → Prop
  | lit {e : Expr} (h : TLit M e) : TCount M e
  | mul {e c : Expr} {trailing : Bool} (h : TLit M e) (hc : TComp c) : TCount M (.methodCall e (str% "saturating_mul") [c] trailing)
  | paren {e : Expr} (h : TCount M e) : TCount M (.paren e)

/-- `Weight::from_parts(lit, lit)` or `Weight::from_ref_time(lit)`. -/
inductive TBase (M : Nat) : Expr → Prop
  | parts {segs : List Str} {a c : Expr} {trailing : Bool} (h : isFn (str% "from_parts") segs = true) (ha : TLit M a) (hc : TLit M c) :
    TBase M (.call (.path segs) [a, c] trailing)
  | refTime {segs : List Str} {a : Expr} {trailing : Bool} (h : isFn (str% "from_ref_time") segs = true) (ha : TLit M a) :
    TBase M (.call (.path segs) [a] trailing)
  | paren {e : Expr} (h : TBase M e) : TBase M (.paren e)

/-- A summand of the template. -/
inductive TSummand (M : Nat) : Expr → Prop
  | base {e : Expr} (h : TBase M e) : TSummand M e
  | slope {e c : Expr} {trailing : Bool} (h : TBase M e) (hc : TComp c) : TSummand M (.methodCall e (str% "saturating_mul") [c] trailing)
  | reads {db e : Expr} {trailing : Bool} (hd : isDb db = true) (h : TCount M e) : TSummand M (.methodCall db (str% "reads") [e] trailing)
  | writes {db e : Expr} {trailing : Bool} (hd : isDb db = true) (h : TCount M e) :
    TSummand M (.methodCall db (str% "writes") [e] trailing)

/-- The body of a generated weight function: a base and any number of summands. -/
inductive Template (M : Nat) : Expr → Prop
  | base {e : Expr} (h : TBase M e) : Template M e
  | add {e s : Expr} {trailing : Bool} (h : Template M e) (hs : TSummand M s) :
    Template M (.methodCall e (str% "saturating_add") [s] trailing)

/-- A summand of the old template with plain numbers. -/
inductive TSummand1 (M : Nat) : Expr → Prop
  | base {e : Expr} (h : TLit M e) : TSummand1 M e
  | slope {e c : Expr} {trailing : Bool} (h : TLit M e) (hc : TComp c) : TSummand1 M (.methodCall e (str% "saturating_mul") [c] trailing)
  | reads {db e : Expr} {trailing : Bool} (hd : isDb db = true) (h : TCount M e) : TSummand1 M (.methodCall db (str% "reads") [e] trailing)
  | writes {db e : Expr} {trailing : Bool} (hd : isDb db = true) (h : TCount M e) :
    TSummand1 M (.methodCall db (str% "writes") [e] trailing)

/-- The body of a weight function generated by the old template. -/
inductive Template1 (M : Nat) : Expr → Prop
  | base {e : Expr} (h : TLit M e) : Template1 M e
  | add {e s : Expr} {trailing : Bool} (h : Template1 M e) (hs : TSummand1 M s) :
    Template1 M (.methodCall e (str% "saturating_add") [s] trailing)

end Swc.Spec
