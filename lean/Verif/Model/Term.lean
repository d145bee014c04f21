/-
Model of `core/src/term.rs`, `core/src/scope.rs` and `core/src/traits.rs`.
-/
import Verif.Model.Basic

namespace Swc

/-- `core/src/lib.rs:409-416` `enum Dimension`. -/
inductive Dimension where
  | time
  | proof
  deriving DecidableEq, Repr

/-- `core/src/traits.rs:33-37` `struct Weight`. -/
structure Weight where
  time : Nat
  proof : Nat
  deriving DecidableEq, Repr

/-- `core/src/term.rs:15-22` `enum Term<T>`.  A variable (`VarValue`, `term.rs:27-29`) is its string. -/
inductive Term (T : Type) where
  | value (x : T)
  | scalar (n : Nat)
  | var (v : Str)
  | add (l r : Term T)
  | mul (l r : Term T)
  deriving DecidableEq, Repr

/-- `core/src/term.rs:24` -/
abbrev SimpleTerm := Term Nat
/-- `core/src/term.rs:25` -/
abbrev ChromaticTerm := Term Weight

/-- `core/src/scope.rs:16-18` `struct Scope<T>`: a `BTreeMap<String, T>`. -/
abbrev Scope (T : Type) := BMap T
/-- `core/src/scope.rs:20` -/
abbrev SimpleScope := Scope SimpleTerm
/-- `core/src/scope.rs:21` -/
abbrev ChromaticScope := Scope ChromaticTerm

/-- `core/src/scope.rs:11` `STORAGE_READ_VAR`. -/
def readVar : Str := str% "READ"
/-- `core/src/scope.rs:12` `STORAGE_WRITE_VAR`. -/
def writeVar : Str := str% "WRITE"
/-- `core/src/lib.rs:48` `WEIGHT_PER_NANOS`. -/
def weightPerNanos : Nat := 1000

namespace Scope

variable {T : Type}

/-- `core/src/scope.rs:41-43` `Scope::empty`. -/
def empty : Scope T := []

/-- `core/src/scope.rs:45-47` `Scope::put_var` (returns the new scope). -/
def putVar (s : Scope T) (name : Str) (v : T) : Scope T := BMap.insert name v s

/-- `core/src/scope.rs:49-53` `Scope::with_var` (clone, then insert). -/
def withVar (s : Scope T) (name : Str) (v : T) : Scope T := BMap.insert name v s

/-- `core/src/scope.rs:55-57` `Scope::get`. -/
def get (s : Scope T) (name : Str) : Option T := BMap.get s name

/-- `core/src/scope.rs:59-61` `Scope::merge`: chain the entries and collect. -/
def merge (s o : Scope T) : Scope T := BMap.insertAll [] (s ++ o)

/-- `core/src/scope.rs:63-65` `Scope::extend`. -/
def extend (s o : Scope T) : Scope T := BMap.insertAll s o

/-- `core/src/scope.rs:67-69` `Scope::len`. -/
def len (s : Scope T) : Nat := List.length s

/-- `core/src/scope.rs:71-73` `Scope::is_empty`. -/
def isEmpty (s : Scope T) : Bool := List.isEmpty s

/-- `core/src/scope.rs:75-77` `Scope::as_vec`. -/
def asVec (s : Scope T) : List (Str × T) := s

/-- `core/src/scope.rs:32-34` `SimpleScope::with_storage_weights`. -/
def withStorageWeights (s : SimpleScope) (read write : SimpleTerm) : SimpleScope :=
  withVar (withVar s readVar read) writeVar write

/-- `core/src/scope.rs:24-30` `SimpleScope::from_substrate`. -/
def fromSubstrate : SimpleScope :=
  withVar (withVar (withVar (withVar empty
    (str% "WEIGHT_PER_NANOS") (.scalar weightPerNanos))
    (str% "WEIGHT_REF_TIME_PER_NANOS") (.scalar weightPerNanos))
    (str% "constants::WEIGHT_PER_NANOS") (.scalar weightPerNanos))
    (str% "constants::WEIGHT_REF_TIME_PER_NANOS") (.scalar weightPerNanos)

/-- `core/src/scope.rs:80-90` `Display for Scope`, for a given rendering of the values. -/
def display (fmt : T → Str) (s : Scope T) : Str :=
  joinStr (str% ", ") (s.map fun p => p.1 ++ str% " = " ++ fmt p.2)

end Scope

/-- `core/src/traits.rs:3-9,11-21,39-49` traits `Zero`, `One` and `traits.rs:23-31,69-73` `ValueFormatter`, collected. -/
class WeightValue (T : Type) where
  zero : T
  one : T
  /-- `ValueFormatter::format_scalar` -/
  formatScalar : T → Str

namespace Weight

/-- `core/src/traits.rs:81-85` `Weight::mul_scalar`: both products are computed (time first). -/
def mulScalar (b : Build) (w : Weight) (o : Nat) : Res Weight := do
  let t ← mulU128 b w.time o
  let p ← mulU128 b w.proof o
  .ok ⟨t, p⟩

/-- `core/src/traits.rs:69-73` `ValueFormatter for Weight`. -/
def formatScalar (w : Weight) : Str :=
  str% "(" ++ natToStr w.time ++ str% ", " ++ natToStr w.proof ++ str% ")"

instance : WeightValue Weight where
  zero := ⟨0, 0⟩
  one := ⟨1, 1⟩
  formatScalar := formatScalar

/-- Component of a weight in a dimension (`weight.time` / `weight.proof`). -/
def get (w : Weight) : Dimension → Nat
  | .time => w.time
  | .proof => w.proof

end Weight

/-- Error text of `core/src/term.rs:146,388,393,401`. -/
def notFoundMsg (x : Str) : Str := str% "Variable '" ++ x ++ str% "' not found"
/-- Error text of `core/src/term.rs:387,392`. -/
def notScalarMsg (x : Str) : Str := str% "Variable '" ++ x ++ str% "' is not a scalar"

/-- `core/src/term.rs:57-61` `PartialEq for VarValue`: equality up to underscores. -/
def varEq (a b : Str) : Bool := stripUnderscore a == stripUnderscore b

namespace Term

variable {T : Type}

/-- The derived `PartialEq` of `Term` (`term.rs:14`), which uses the custom `PartialEq for VarValue`. -/
def rustEq [DecidableEq T] : Term T → Term T → Bool
  | .value x, .value y => decide (x = y)
  | .scalar x, .scalar y => x == y
  | .var x, .var y => varEq x y
  | .add a b, .add c d => rustEq a c && rustEq b d
  | .mul a b, .mul c d => rustEq a c && rustEq b d
  | _, _ => false

/-- Index of the variant in `enum Term` (used by the derived `Ord`). -/
def variantIdx : Term T → Nat
  | .value _ => 0
  | .scalar _ => 1
  | .var _ => 2
  | .add _ _ => 3
  | .mul _ _ => 4

/-- The derived `Ord` of `SimpleTerm` (`term.rs:14`): variant index, then fields in order.  `VarValue` *derives* `Ord`
(`term.rs:27`), so variables compare by their exact string. -/
def cmp : SimpleTerm → SimpleTerm → Ordering
  | .value x, .value y => compare x y
  | .scalar x, .scalar y => compare x y
  | .var x, .var y => compare x y
  | .add a b, .add c d => (cmp a c).then (cmp b d)
  | .mul a b, .mul c d => (cmp a c).then (cmp b d)
  | s, t => compare s.variantIdx t.variantIdx

/-! #### Evaluation of one-dimensional terms -/

/-- `core/src/term.rs:136-149` `SimpleTerm::eval`, with the treatment of a variable factored out: operands are evaluated left to
right, the first failure wins, then the u128 operation is applied. -/
def evalWith (b : Build) (look : Str → Res Nat) : SimpleTerm → Res Nat
  | .value x => .ok x
  | .scalar x => .ok x
  | .add x y => do
    let a ← evalWith b look x
    let c ← evalWith b look y
    addU128 b a c
  | .mul x y => do
    let a ← evalWith b look x
    let c ← evalWith b look y
    mulU128 b a c
  | .var x => look x

/-- `core/src/term.rs:142-147`: a bound variable is evaluated in the same scope; fuel bounds the depth of such look-ups. -/
def evalF (b : Build) (ctx : SimpleScope) : Nat → SimpleTerm → Res Nat
  | 0 => evalWith b fun x =>
    match Scope.get ctx x with
    | some _ => .diverge
    | none => .err (notFoundMsg x)
  | fuel + 1 => evalWith b fun x =>
    match Scope.get ctx x with
    | some t => evalF b ctx fuel t
    | none => .err (notFoundMsg x)

/-- `core/src/term.rs:136-149` `SimpleTerm::eval`.  The fuel (number of bindings) is exact: more fuel never changes the outcome
(theorem `C06_fuel_irrelevant`), so `diverge` really means that the Rust function does not return. -/
def eval (b : Build) (t : SimpleTerm) (ctx : SimpleScope) : Res Nat := evalF b ctx ctx.len t

/-- `core/src/term.rs:167-172` `scalar_into_term`. -/
def scalarIntoTerm (s : Nat) : Dimension → Weight
  | .time => ⟨s, 0⟩
  | .proof => ⟨0, s⟩

/-- `core/src/term.rs:151-165` `SimpleTerm::into_chromatic`. -/
def intoChromatic (d : Dimension) : SimpleTerm → ChromaticTerm
  | .value x => .value (scalarIntoTerm x d)
  | .scalar x => .value (scalarIntoTerm x d)
  | .add x y => .add (intoChromatic d x) (intoChromatic d y)
  | .mul x y => .mul (intoChromatic d x) (intoChromatic d y)
  | .var x => .var x

/-! #### Generic functions -/

/-- `core/src/term.rs:179-185` `is_const_zero`. -/
def isConstZero [DecidableEq T] [WeightValue T] : Term T → Bool
  | .value x => decide (x = WeightValue.zero)
  | .scalar x => x == 0
  | _ => false

/-- `core/src/term.rs:187-193` `is_const_one`. -/
def isConstOne [DecidableEq T] [WeightValue T] : Term T → Bool
  | .value x => decide (x = WeightValue.one)
  | .scalar x => x == 1
  | _ => false

/-- `core/src/term.rs:199-208` `free_vars` (ascending list of a `BTreeSet<String>`). -/
def freeVars (scope : Scope (Term T)) : Term T → List Str
  | .var v => if (Scope.get scope v).isSome then [] else [v]
  | .scalar _ => []
  | .value _ => []
  | .mul l r => setUnion compare (freeVars scope l) (freeVars scope r)
  | .add l r => setUnion compare (freeVars scope l) (freeVars scope r)

/-- `core/src/term.rs:214-223` `bound_vars`. -/
def boundVars (scope : Scope (Term T)) : Term T → List Str
  | .var v => if (Scope.get scope v).isSome then [v] else []
  | .scalar _ => []
  | .value _ => []
  | .mul l r => setUnion compare (boundVars scope l) (boundVars scope r)
  | .add l r => setUnion compare (boundVars scope l) (boundVars scope r)

/-- `core/src/term.rs:246-257` `substitute` (returns the new term).  Names are compared exactly (`v.0 == var`). -/
def substitute (x : Str) (u : Term T) : Term T → Term T
  | .var v => if v = x then u else .var v
  | .scalar n => .scalar n
  | .value n => .value n
  | .mul l r => .mul (substitute x u l) (substitute x u r)
  | .add l r => .add (substitute x u l) (substitute x u r)

/-- `core/src/term.rs:240-244` `into_substituted`. -/
def intoSubstituted (t : Term T) (x : Str) (u : Term T) : Term T := substitute x u t

/-- Tokens of a printed equation.  `num` and `wt` carry the number before it is rendered. -/
inductive Tok (T : Type) where
  | num (n : Nat)
  | wt (x : T)
  | ident (v : Str)
  | plus
  | times
  | lpar
  | rpar
  deriving DecidableEq, Repr

/-- `core/src/term.rs:263-310` `maybe_fmt_with_bracket`, producing tokens instead of characters: `format!("{} * {}", l, r)` is
`l ++ [times] ++ r`, and so on.  `renderTok` gives the characters back. -/
def maybeFmt [DecidableEq T] [WeightValue T] : Bool → Term T → Option (List (Tok T))
  | hb, .mul l r =>
    if l.isConstOne then maybeFmt hb r
    else if r.isConstOne then maybeFmt hb l
    else if r.isConstZero || l.isConstZero then none
    else match maybeFmt false l, maybeFmt false r with
      | some a, some c => some (a ++ [.times] ++ c)
      | some a, none => some a
      | none, some c => some c
      | none, none => none
  | hb, .add l r =>
    if l.isConstZero && r.isConstZero then none
    else if l.isConstZero then maybeFmt hb r
    else if r.isConstZero then maybeFmt hb l
    else if hb then
      match maybeFmt true l, maybeFmt true r with
      | some a, some c => some (a ++ [.plus] ++ c)
      | some a, none => some a
      | none, some c => some c
      | none, none => none
    else
      match maybeFmt true l, maybeFmt true r with
      | some a, some c => some ([.lpar] ++ a ++ [.plus] ++ c ++ [.rpar])
      | some a, none => some a
      | none, some c => some c
      | none, none => none
  | _, .value x => some [.wt x]
  | _, .scalar n => some [.num n]
  | _, .var v => some [.ident v]

/-- `core/src/term.rs:259-261` `fmt_with_bracket`: an empty rendering becomes `0`. -/
def fmtTokens [DecidableEq T] [WeightValue T] (hb : Bool) (t : Term T) : List (Tok T) :=
  (maybeFmt hb t).getD [.num 0]

/-- Characters of a token, for a given rendering of scalars (`Dimension::fmt_scalar`). -/
def renderTok [WeightValue T] (fmtScalar : Nat → Str) : Tok T → Str
  | .num n => fmtScalar n
  | .wt x => WeightValue.formatScalar x
  | .ident v => v
  | .plus => str% " + "
  | .times => str% " * "
  | .lpar => str% "("
  | .rpar => str% ")"

/-- `core/src/term.rs:455-462` `Display for Term` (`fmt_with_bracket(true)`).  The `"0"` of an empty rendering is the rendering of
the scalar `0`. -/
def display [DecidableEq T] [WeightValue T] (fmtScalar : Nat → Str) (t : Term T) : Str :=
  (fmtTokens true t).flatMap (renderTok fmtScalar)

/-- `core/src/term.rs:225-238` `fmt_equation`; `scope.get(var).unwrap()` is an explicit panic. -/
def fmtEquation [DecidableEq T] [WeightValue T] (fmtScalar : Nat → Str) (scope : Scope (Term T)) (t : Term T) : Res Str := do
  let bs ← (boundVars scope t).mapM fun v => do
    let u ← Res.unwrap (Scope.get scope v)
    Res.ok (v ++ str% "=" ++ display fmtScalar u)
  .ok (joinStr (str% ", ") (bs ++ freeVars scope t))

/-- `core/src/term.rs:312-329` `visit`.  For a leaf the closure is called twice and only the second result is kept; for an inner
node its own result comes first, then those of the operands. -/
def visit {R : Type} (f : Term T → Res R) : Term T → Res (List R)
  | .value x => do
    let _ ← f (.value x)
    let r ← f (.value x)
    .ok [r]
  | .scalar x => do
    let _ ← f (.scalar x)
    let r ← f (.scalar x)
    .ok [r]
  | .var x => do
    let _ ← f (.var x)
    let r ← f (.var x)
    .ok [r]
  | .add l r => do
    let x ← f (.add l r)
    let a ← visit f l
    let c ← visit f r
    .ok (x :: a ++ c)
  | .mul l r => do
    let x ← f (.mul l r)
    let a ← visit f l
    let c ← visit f r
    .ok (x :: a ++ c)

/-- `core/src/term.rs:350-355` `as_scalar`. -/
def asScalar : Term T → Option Nat
  | .scalar n => some n
  | _ => none

/-- `core/src/term.rs:357-362` `as_var`. -/
def asVar : Term T → Option Str
  | .var v => some v
  | _ => none

/-- The closure of `core/src/term.rs:333-343`. -/
def factorAt (x : Str) (t : Term T) : Option Nat :=
  match t with
  | .mul l r =>
    if r.asVar = some x ∧ l.asScalar.isSome then l.asScalar
    else if l.asVar = some x ∧ r.asScalar.isSome then r.asScalar
    else none
  | _ => none

/-- `Iterator::max` of unsigned integers. -/
def maxOpt : List Nat → Option Nat
  | [] => none
  | x :: l => some (l.foldl max x)

/-- `core/src/term.rs:332-348` `find_largest_factor`; the `.unwrap()` of the visit result is an explicit panic. -/
def findLargestFactor (x : Str) (t : Term T) : Res (Option Nat) :=
  match visit (fun s => Res.ok (factorAt x s)) t with
  | .ok l => .ok (maxOpt (l.filterMap id))
  | _ => .panic

/-! #### Two-dimensional terms -/

/-- `core/src/term.rs:367-404` `ChromaticTerm::eval` with the evaluation of a stand-alone variable factored out (`look`), and direct
access to the scope (`ctx`) where the code inspects the binding of a variable factor. -/
def cevalWith (b : Build) (ctx : ChromaticScope) (look : Str → Res Weight) : ChromaticTerm → Res Weight
  | .value x => .ok x
  | .scalar _ => .panic
  | .add x y => do
    let w ← cevalWith b ctx look x
    let v ← cevalWith b ctx look y
    let t ← addU128 b w.time v.time
    let p ← addU128 b w.proof v.proof
    .ok ⟨t, p⟩
  | .mul (.scalar x) y => do
    let w ← cevalWith b ctx look y
    let t ← mulU128 b x w.time
    let p ← mulU128 b x w.proof
    .ok ⟨t, p⟩
  | .mul x (.scalar y) => do
    let w ← cevalWith b ctx look x
    let t ← mulU128 b y w.time
    let p ← mulU128 b y w.proof
    .ok ⟨t, p⟩
  | .mul (.var x) y =>
    match Scope.get ctx x with
    | some (.scalar n) => do
      let w ← cevalWith b ctx look y
      w.mulScalar b n
    | some _ => .err (notScalarMsg x)
    | none => .err (notFoundMsg x)
  | .mul x (.var y) =>
    match Scope.get ctx y with
    | some (.scalar n) => do
      let w ← cevalWith b ctx look x
      w.mulScalar b n
    | some _ => .err (notScalarMsg y)
    | none => .err (notFoundMsg y)
  | .mul _ _ => .panic
  | .var x => look x

/-- `core/src/term.rs:397-402`: a stand-alone variable is evaluated in the same scope. -/
def cevalF (b : Build) (ctx : ChromaticScope) : Nat → ChromaticTerm → Res Weight
  | 0 => cevalWith b ctx fun x =>
    match Scope.get ctx x with
    | some _ => .diverge
    | none => .err (notFoundMsg x)
  | fuel + 1 => cevalWith b ctx fun x =>
    match Scope.get ctx x with
    | some t => cevalF b ctx fuel t
    | none => .err (notFoundMsg x)

/-- `core/src/term.rs:367-404` `ChromaticTerm::eval`. -/
def ceval (b : Build) (t : ChromaticTerm) (ctx : ChromaticScope) : Res Weight := cevalF b ctx ctx.len t

/-- `core/src/term.rs:418-433` `for_values`. -/
def forValues (f : ChromaticTerm → Res SimpleTerm) : ChromaticTerm → Res SimpleTerm
  | .value x => f (.value x)
  | .scalar x => f (.scalar x)
  | .var x => f (.var x)
  | .mul l r => do
    let a ← forValues f l
    let c ← forValues f r
    .ok (.mul a c)
  | .add l r => do
    let a ← forValues f l
    let c ← forValues f r
    .ok (.add a c)

/-- The closure of `core/src/term.rs:407-415`; the last arm is `unreachable!()`. -/
def simplifyLeaf (unit : Dimension) : ChromaticTerm → Res SimpleTerm
  | .value w =>
    if unit = .time then .ok (.value w.time)
    else if unit = .proof then .ok (.value w.proof)
    else .panic
  | .scalar n => .ok (.scalar n)
  | .var v => .ok (.var v)
  | _ => .panic

/-- `core/src/term.rs:406-416` `simplify`. -/
def simplify (unit : Dimension) (t : ChromaticTerm) : Res SimpleTerm := forValues (simplifyLeaf unit) t

/-- `core/src/term.rs:436-452` `splice_add`. -/
def spliceAdd : ChromaticTerm → ChromaticTerm → ChromaticTerm
  | .add t1 p1, .add t2 p2 => .add (spliceAdd t1 t2) (spliceAdd p1 p2)
  | .value x, .value y =>
    if x.time = 0 ∧ y.proof = 0 then .value ⟨y.time, x.proof⟩
    else if x.proof = 0 ∧ y.time = 0 then .value ⟨x.time, y.proof⟩
    else .add (.value x) (.value y)
  | s, o => .add s o

end Term

namespace SimpleScope

/-- The derived `Ord` of `SimpleScope` (`scope.rs:14`): `BTreeMap` compares the sequences of `(key, value)` pairs
lexicographically, pairs by key then value. -/
def cmp (a b : SimpleScope) : Ordering :=
  List.compareLex (fun p q => (compare p.1 q.1).then (Term.cmp p.2 q.2)) a b

end SimpleScope

end Swc
