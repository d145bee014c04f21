/-
Independent specification for the comparison of two versions of a call: components, annotated ranges, instances and corners.
Only the data types of the model are used.
-/
import Verif.Model.Compare
import Verif.Spec.Arith

namespace Swc.Spec

open Swc

/-- `x` occurs in one of the two equations and the scope has no binding for it. -/
def FreeIn (scope : SimpleScope) (old new : Option SimpleExtrinsic) (x : Str) : Prop :=
  (∃ e, (old = some e ∨ new = some e) ∧ Occurs x e.term) ∧ binding scope x = none

/-- A component of a call: a variable of one of its two equations other than the storage constants. -/
def Component (old new : Option SimpleExtrinsic) (x : Str) : Prop :=
  (∃ e, (old = some e ∨ new = some e) ∧ Occurs x e.term) ∧ x ≠ str% "READ" ∧ x ≠ str% "WRITE"

/-- One of the two versions annotates component `x` with the range `r`. -/
def Annotated (old new : Option SimpleExtrinsic) (x : Str) (r : ComponentRange) : Prop :=
  ∃ e m, (old = some e ∨ new = some e) ∧ e.compRanges = some m ∧ binding m x = some r

/-- `n` is the smallest annotated minimum of `x`, or 0 if there is no annotation. -/
def MinInst (old new : Option SimpleExtrinsic) (x : Str) (n : Nat) : Prop :=
  ((∀ r, ¬ Annotated old new x r) ∧ n = 0) ∨
  ((∃ r, Annotated old new x r ∧ r.min = n) ∧ ∀ r, Annotated old new x r → n ≤ r.min)

/-- `n` is the largest annotated maximum of `x`, or 100 if there is no annotation. -/
def MaxInst (old new : Option SimpleExtrinsic) (x : Str) (n : Nat) : Prop :=
  ((∀ r, ¬ Annotated old new x r) ∧ n = 100) ∨
  ((∃ r, Annotated old new x r ∧ r.max = n) ∧ ∀ r, Annotated old new x r → r.max ≤ n)

/-- The low instance of a component: its minimum, except for the asymptotic methods. -/
def IsLow (m : CompareMethod) (old new : Option SimpleExtrinsic) (x : Str) (n : Nat) : Prop :=
  match m with
  | .base | .exactWorst | .guessWorst => MinInst old new x n
  | .exactAsymptotic | .asymptotic => MaxInst old new x n

/-- The high instance of a component: its maximum, except for the base method. -/
def IsHigh (m : CompareMethod) (old new : Option SimpleExtrinsic) (x : Str) (n : Nat) : Prop :=
  match m with
  | .base => MinInst old new x n
  | .exactWorst | .guessWorst | .exactAsymptotic | .asymptotic => MaxInst old new x n

/-- The methods that promise not to guess. -/
def Exact (m : CompareMethod) : Prop := m = .exactWorst ∨ m = .exactAsymptotic

/-- `x` has an unambiguous annotated range: at least one, and the same wherever there is one. -/
def Unambiguous (old new : Option SimpleExtrinsic) (x : Str) : Prop :=
  ∃ r, Annotated old new x r ∧ ∀ r', Annotated old new x r' → r' = r

/-- `s` extends `scope` by giving each free variable its low or its high instance, and binds nothing else.
(A scope is a sorted association list, so its bindings determine it.) -/
def IsCorner (scope : SimpleScope) (free : Str → Prop) (lo hi : Str → Nat) (s : SimpleScope) : Prop :=
  s.Pairwise (fun p q => compare p.1 q.1 = .lt) ∧
  ∀ x, (free x → binding s x = some (.scalar (lo x)) ∨ binding s x = some (.scalar (hi x))) ∧
       (¬ free x → binding s x = binding scope x)

/-- There are more than `n` variables with property `P`. -/
def MoreThan (n : Nat) (P : Str → Prop) : Prop := ∃ l : List Str, l.Nodup ∧ n < l.length ∧ ∀ x ∈ l, P x

/-- Cost of a storage read in each dimension. -/
def readCost : Dimension → Nat
  | .time => 25000000
  | .proof => 0

/-- Cost of a storage write in each dimension. -/
def writeCost : Dimension → Nat
  | .time => 100000000
  | .proof => 0

/-- `s` is an evaluation point of the comparison of `old` and `new`: it gives `READ` and `WRITE` their cost, every component its
low or its high instance, and binds nothing else.  (A scope is a sorted association list, so its bindings determine it.) -/
def Corner (d : Dimension) (m : CompareMethod) (old new : Option SimpleExtrinsic) (s : SimpleScope) : Prop :=
  s.Pairwise (fun p q => compare p.1 q.1 = .lt) ∧
  binding s (str% "READ") = some (.scalar (readCost d)) ∧
  binding s (str% "WRITE") = some (.scalar (writeCost d)) ∧
  (∀ x, Component old new x → ∃ n, binding s x = some (.scalar n) ∧ (IsLow m old new x n ∨ IsHigh m old new x n)) ∧
  (∀ x u, binding s x = some u → x = str% "READ" ∨ x = str% "WRITE" ∨ Component old new x)

/-- The numbers that a scope assigns. -/
def assignment (s : SimpleScope) (x : Str) : Nat :=
  match binding s x with
  | some (.scalar n) => n
  | some (.value n) => n
  | _ => 0

/-- The reasons for which a comparison is refused. -/
def Refused (m : CompareMethod) (old new : Option SimpleExtrinsic) : Prop :=
  MoreThan 16 (Component old new) ∨ (Exact m ∧ ∃ x, Component old new x ∧ ¬ Unambiguous old new x)

/-- The equation with all underscores removed from variable names. -/
def eraseUnderscores : SimpleTerm → SimpleTerm
  | .value n => .value n
  | .scalar n => .scalar n
  | .var x => .var (x.filter (· != '_'))
  | .add l r => .add (eraseUnderscores l) (eraseUnderscores r)
  | .mul l r => .mul (eraseUnderscores l) (eraseUnderscores r)

/-- The equation that is compared in a dimension: in the proof dimension storage accesses count as the number 0. -/
def costed (d : Dimension) : SimpleTerm → SimpleTerm
  | .value n => .value n
  | .scalar n => .scalar n
  | .var x => if d = .proof ∧ (x = str% "READ" ∨ x = str% "WRITE") then .scalar 0 else .var x
  | .add l r => .add (costed d l) (costed d r)
  | .mul l r => .mul (costed d l) (costed d r)

/-- The two equations are the same up to underscores in variable names. -/
def SameEquation (d : Dimension) (t u : SimpleTerm) : Prop :=
  eraseUnderscores (costed d t) = eraseUnderscores (costed d u)

/-- Rank of a percentage: thousandths of a percentage point, truncated. -/
def rank (p : F64) : ℤ := F64.toI128 (F64.mul p (F64.rnd 1000))

end Swc.Spec
