/-
Independent specification of storage and overhead weight files: which constants they define, and what those are worth in Rust.
-/
import Verif.Model.ParseStorage
import Verif.Spec.Decimal

namespace Swc.Spec

open Swc

mutual

/-- The constants defined by `parameter_types!` in the item: directly, or inside (possibly nested) modules called `constants`. -/
def definitions : Item → List ConstDef
  | .macro last (some c) => if last = str% "parameter_types" then [c] else []
  | .mod name (some items) => if name = str% "constants" then definitionsIn items else []
  | _ => []

/-- The same for a list of items, in the order of the file. -/
def definitionsIn : List Item → List ConstDef
  | [] => []
  | i :: l => definitions i ++ definitionsIn l

end

/-- `const RocksDbWeight: RuntimeDbWeight = RuntimeDbWeight { read: …, write: … }`, or the same for `ParityDbWeight`; the two fields in any order. -/
def IsDbWeight (c : ConstDef) (db : Db) (read write : Expr) : Prop :=
  ((c.name = str% "RocksDbWeight" ∧ db = .rocks) ∨ (c.name = str% "ParityDbWeight" ∧ db = .parity))
    ∧ (∃ lead segs, c.ty = .path lead segs ∧ segs.flatten = str% "RuntimeDbWeight")
    ∧ ∃ path fields, c.value = .struct path fields ∧ path.flatten = str% "RuntimeDbWeight"
      ∧ (fields = [(some (str% "read"), read), (some (str% "write"), write)]
        ∨ fields = [(some (str% "write"), write), (some (str% "read"), read)])

/-- `const BlockExecutionWeight: Weight = e` or `const ExtrinsicBaseWeight: Weight = e`. -/
def IsOverhead (c : ConstDef) (t : ChromaticTerm) (w : OverheadWeight) : Prop :=
  ((c.name = str% "BlockExecutionWeight" ∧ w = .blockExecution t) ∨ (c.name = str% "ExtrinsicBaseWeight" ∧ w = .extrinsicBase t))
    ∧ ∃ lead segs, c.ty = .path lead segs ∧ segs.flatten = str% "Weight"

/-- Value of the constants of `frame_support::weights::constants` that weight files use: 1000 weight units per nanosecond. -/
def constantValue (segs : List Str) : Option Nat :=
  if segs = [str% "WEIGHT_PER_NANOS"] ∨ segs = [str% "WEIGHT_REF_TIME_PER_NANOS"] ∨ segs = [str% "constants", str% "WEIGHT_PER_NANOS"]
    ∨ segs = [str% "constants", str% "WEIGHT_REF_TIME_PER_NANOS"] then some 1000 else none

/-- `n` if it does not exceed `M`. -/
def upTo (M n : Nat) : Option Nat := if n ≤ M then some n else none

/-- Value of a Rust constant expression built from literals, the constants above, `*` and `+`, in an integer type with maximum `M`.
An overflow does not compile. -/
def constExpr (M : Nat) : Expr → Option Nat
  | .lit (.int digits) => (readNat digits).bind (upTo M)
  | .path segs => constantValue segs
  | .binary l .mul r => (constExpr M l).bind fun a => (constExpr M r).bind fun b => upTo M (a * b)
  | .binary l .add r => (constExpr M l).bind fun a => (constExpr M r).bind fun b => upTo M (a + b)
  | _ => none

/-- The expression consists of literals, paths, `*` and `+`. -/
inductive SumProduct : Expr → Prop
  | lit (l : Lit) : SumProduct (.lit l)
  | path (segs : List Str) : SumProduct (.path segs)
  | mul {l r : Expr} : SumProduct l → SumProduct r → SumProduct (.binary l .mul r)
  | add {l r : Expr} : SumProduct l → SumProduct r → SumProduct (.binary l .add r)

end Swc.Spec
