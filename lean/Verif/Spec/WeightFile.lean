/-
Independent specification of the weight files that the Substrate benchmarking tool writes: which functions a file contains, what they cost, and
which texts are files with these functions.  No syntax tree occurs here, only tokens and numbers.
-/
import Verif.Spec.RustGrammar
import Verif.Spec.Runtime
import Verif.Spec.Decimal
import Verif.Spec.Arith
import Verif.Model.Compare
import Verif.Spec.Compare
import Verif.Model.ParsePallet

namespace Swc.Spec

open Swc

/-! ### What a function costs -/

/-- How the template of the benchmarking tool writes weights: `Weight::from_parts(t, p)`, `Weight::from_ref_time(t as u64)`, or plain numbers
`(t as Weight)`. -/
inductive Style where
  | parts
  | refTime
  | plain
  deriving DecidableEq

/-- What is added to the base weight: a weight per unit of a component, storage accesses, storage accesses per unit of a component. -/
inductive Summand where
  | slope (time proof : Nat) (c : Str)
  | reads (n : Nat)
  | writes (n : Nat)
  | readsPer (n : Nat) (c : Str)
  | writesPer (n : Nat) (c : Str)

/-- A line of documentation: the range of a component, or anything else. -/
inductive DocLine where
  | range (c : Str) (lo hi : Nat)
  | text (s : Str)

/-- A weight function of a generated file. -/
structure GenFn where
  name : Str
  docs : List DocLine
  time : Nat
  proof : Nat
  summands : List Summand

/-- Cost of a summand, in unbounded arithmetic. -/
def Summand.cost (rt : Runtime) : Dimension → Summand → Nat
  | .time, .slope t _ c => t * rt.comp c
  | .proof, .slope _ p c => p * rt.comp c
  | .time, .reads n => n * rt.read
  | .time, .writes n => n * rt.write
  | .time, .readsPer n c => n * rt.comp c * rt.read
  | .time, .writesPer n c => n * rt.comp c * rt.write
  | .proof, _ => 0

/-- Cost of a call, in unbounded arithmetic. -/
def GenFn.cost (f : GenFn) (rt : Runtime) (d : Dimension) : Nat :=
  (match d with | .time => f.time | .proof => f.proof) + (f.summands.map (Summand.cost rt d)).sum

/-- The documented range of a component (underscores in its name do not count): the last one. -/
def rangeIn (c : Str) : List DocLine → Option ComponentRange
  | [] => none
  | .range x lo hi :: l => (rangeIn c l).or (if x.filter (· ≠ '_') = c then some ⟨lo, hi⟩ else none)
  | .text _ :: l => rangeIn c l

/-- The components of a summand. -/
def Summand.comps : Summand → List Str
  | .slope _ _ c => [c]
  | .reads _ => []
  | .writes _ => []
  | .readsPer _ c => [c]
  | .writesPer _ c => [c]

/-- The numbers of a summand. -/
def Summand.nums : Summand → List Nat
  | .slope t p _ => [t, p]
  | .reads n => [n]
  | .writes n => [n]
  | .readsPer n _ => [n]
  | .writesPer n _ => [n]

/-- The proof size of a summand. -/
def Summand.proofSize : Summand → Nat
  | .slope _ p _ => p
  | _ => 0

/-- A line of documentation that is not a range does not contain ```[`` and has only printable ASCII characters and tabs; a range is not empty and
its component is a word. -/
def DocLine.Ok : DocLine → Prop
  | .range c lo hi => Word c ∧ lo ≤ hi ∧ hi < 2 ^ 32
  | .text s => ¬ (str% "`[") <:+: s ∧ ∀ c ∈ s, c = '\t' ∨ (32 ≤ c.toNat ∧ c.toNat < 127)

/-- A function that the tool can have written: names are names, components are not called like the storage costs, numbers fit into `u64`; without
`from_parts` there is no proof size. -/
def GenFn.Ok (style : Style) (f : GenFn) : Prop :=
  Name f.name ∧ (∀ l ∈ f.docs, l.Ok) ∧ f.time ≤ 2 ^ 64 - 1 ∧ f.proof ≤ 2 ^ 64 - 1 ∧
  (∀ s ∈ f.summands, (∀ c ∈ s.comps, Name c ∧ c ≠ str% "READ" ∧ c ≠ str% "WRITE") ∧ ∀ n ∈ s.nums, n ≤ 2 ^ 64 - 1) ∧
  (style ≠ .parts → f.proof = 0 ∧ ∀ s ∈ f.summands, s.proofSize = 0)

/-! ### How it is written -/

/-- A number. -/
def nat' (n : Nat) : RTree := .tok (.int (Nat.toDigits 10 n))

/-- A number with its type. -/
def numTrees : Style → Nat → List RTree
  | .parts, n => [nat' n]
  | .refTime, n => [nat' n, id' (str% "as"), id' (str% "u64")]
  | .plain, n => [nat' n, id' (str% "as"), id' (str% "Weight")]

/-- A weight. -/
def weightTrees : Style → Nat → Nat → List RTree
  | .parts, t, p => [id' (str% "Weight"), sy .path, id' (str% "from_parts"), .group .paren [nat' t, sy .comma, nat' p]]
  | .refTime, t, _ => [id' (str% "Weight"), sy .path, id' (str% "from_ref_time"), .group .paren (numTrees .refTime t)]
  | .plain, t, _ => [.group .paren (numTrees .plain t)]

/-- The value of a component. -/
def compTrees : Style → Str → List RTree
  | .parts, c => [id' c, sy .dot, id' (str% "into"), .group .paren []]
  | .refTime, c => [id' c, id' (str% "as"), id' (str% "u64")]
  | .plain, c => [id' c, id' (str% "as"), id' (str% "Weight")]

/-- A method call with one argument. -/
def callTrees (m : Str) (arg : List RTree) : List RTree := [sy .dot, id' m, .group .paren arg]

/-- Names joined by `::`. -/
def joinPath : List Str → List RTree
  | [] => []
  | [x] => [id' x]
  | x :: l => id' x :: sy .path :: joinPath l

/-- The database weight: `T::DbWeight::get()`, `RocksDbWeight::get()` or `ParityDbWeight::get()`. -/
def DbPath (p : List Str) : Prop :=
  p = [str% "T", str% "DbWeight", str% "get"] ∨ p = [str% "RocksDbWeight", str% "get"] ∨ p = [str% "ParityDbWeight", str% "get"]

/-- A summand. -/
def summandTrees (style : Style) (db : List Str) : Summand → List RTree
  | .slope t p c => weightTrees style t p ++ callTrees (str% "saturating_mul") (compTrees style c)
  | .reads n => joinPath db ++ .group .paren [] :: callTrees (str% "reads") (numTrees style n)
  | .writes n => joinPath db ++ .group .paren [] :: callTrees (str% "writes") (numTrees style n)
  | .readsPer n c =>
    joinPath db ++ .group .paren [] ::
      callTrees (str% "reads") (.group .paren (numTrees style n) :: callTrees (str% "saturating_mul") (compTrees style c))
  | .writesPer n c =>
    joinPath db ++ .group .paren [] ::
      callTrees (str% "writes") (.group .paren (numTrees style n) :: callTrees (str% "saturating_mul") (compTrees style c))

/-- The body of a function: the base weight and the summands. -/
def bodyTrees (style : Style) (db : List Str) (f : GenFn) : List RTree :=
  weightTrees style f.time f.proof ++ (f.summands.map fun s => callTrees (str% "saturating_add") (summandTrees style db s)).flatten

/-- The text of a line of documentation. -/
def DocLine.line : DocLine → Str
  | .range c lo hi => str% " The range of component `" ++ c ++ str% "` is `[" ++ Nat.toDigits 10 lo ++ str% ", " ++ Nat.toDigits 10 hi ++ str% "]`."
  | .text s => s

/-- A function: documentation, name, parameters (any), return type `Weight`, body. -/
def GenFnTrees (style : Style) (f : GenFn) (ts : List RTree) : Prop :=
  ∃ db vis gs ps semi, DbPath db ∧ Vis vis ∧ Generics gs ∧ (semi = [] ∨ semi = [sy .semi]) ∧
    ts = f.docs.map (fun l => .tok (.doc false l.line)) ++ vis ++ id' (str% "fn") :: id' f.name ::
      (gs ++ [.group .paren ps, sy .arrow, id' (str% "Weight"), .group .brace (bodyTrees style db f ++ semi)])

/-- Several functions. -/
inductive GenFnsTrees (style : Style) : List GenFn → List RTree → Prop
  | nil : GenFnsTrees style [] []
  | cons {f : GenFn} {l : List GenFn} {ts us : List RTree} (hf : GenFnTrees style f ts) (hl : GenFnsTrees style l us) :
    GenFnsTrees style (f :: l) (ts ++ us)

/-- The types for which weights are implemented: `WeightInfo<…>`, `SubstrateWeight<…>` and `()`. -/
def WeightTy (ty : Ty) : Prop := ty = .tuple 0 ∨ ty = .path false [str% "WeightInfo"] ∨ ty = .path false [str% "SubstrateWeight"]

/-- `s` is a text of a weight file with these functions: inner attributes, items that are no `impl` blocks for the types above, the block
`impl … for WeightInfo`, `impl … for SubstrateWeight` or `impl … for ()` with the functions, and any other items, in any layout. -/
def GenFile (style : Style) (fns : List GenFn) (s : Str) : Prop :=
  ∃ (inner before at' vis gs trs tys ws inner' us after : List RTree) (skipped others : List Item) (attrs : List Attr) (trait self : Ty),
    Inner inner ∧ ItemsTrees skipped before ∧ (∀ i ∈ skipped, ∀ ty its, i = .impl ty its → ¬ WeightTy ty) ∧ AttrTrees attrs at' ∧ Vis vis ∧
    Generics gs ∧ TypeTrees trait trs ∧ TypeTrees self tys ∧ WeightTy self ∧ WhereTrees ws ∧ Inner inner' ∧
    GenFnsTrees style fns us ∧ ItemsTrees others after ∧
    let ts := inner ++ (before ++ (at' ++ vis ++ id' (str% "impl") ::
      (gs ++ trs ++ id' (str% "for") :: (tys ++ ws ++ [.group .brace (inner' ++ us)])) ++ after))
    proper ts = true ∧ Layout (toksOf ts) s

/-- What is to be read from the function. -/
def ReadAs (pallet : Str) (f : GenFn) (x : ChromaticExtrinsic) : Prop :=
  x.name = f.name ∧ x.pallet = pallet ∧ (∀ rt d, cvalue d (Runtime.env rt d) x.term = f.cost rt d) ∧
  ∀ c, rangeGet x.compRanges c = rangeIn c f.docs

/-! ### The worst case -/

/-- The smallest documented value of a component: over both versions of the function, or 0 if neither documents it. -/
def lowestIn (f g : GenFn) (c : Str) : Nat :=
  match rangeIn c f.docs, rangeIn c g.docs with
  | none, none => 0
  | some r, none => r.min
  | none, some r => r.min
  | some r, some s => min r.min s.min

/-- The largest documented value of a component: over both versions of the function, or 100 if neither documents it. -/
def highestIn (f g : GenFn) (c : Str) : Nat :=
  match rangeIn c f.docs, rangeIn c g.docs with
  | none, none => 100
  | some r, none => r.max
  | none, some r => r.max
  | some r, some s => max r.max s.max

/-- RocksDB storage costs, and parameters in the documented ranges. -/
def InRanges (f g : GenFn) (rt : Runtime) : Prop :=
  rt.read = 25000000 ∧ rt.write = 100000000 ∧ ∀ c, lowestIn f g c ≤ rt.comp c ∧ rt.comp c ≤ highestIn f g c

/-- The change is the worst case of the two versions: no parameters in the documented ranges give a larger one, and some give exactly the two
reported values. -/
def WorstChange (f g : GenFn) (d : Dimension) (r : TermChange) : Prop :=
  (∀ rt, InRanges f g rt → rank (percent (f.cost rt d) (g.cost rt d)) ≤ rank r.percent) ∧
  ∃ rt, InRanges f g rt ∧ r.oldV = some (f.cost rt d) ∧ r.newV = some (g.cost rt d) ∧ r.percent = percent (f.cost rt d) (g.cost rt d)

/-- The file is a generated weight file with these functions, written by a tool that puts sensible things there. -/
def GeneratedFile (fs : Fs) (file : Path) (content : Str) (fns : List GenFn) : Prop :=
  fs file = .ok content ∧ fns ≠ [] ∧ ∃ style, GenFile style fns content ∧ ∀ f ∈ fns, f.Ok style

end Swc.Spec
