/-
Independent specification of the texts of storage and overhead weight files: which database costs or overhead a file is about, and which texts say
so.  No syntax tree of an expression occurs here, only tokens and numbers.
-/
import Verif.Spec.WeightFile
import Verif.Spec.ConstFile

namespace Swc.Spec

open Swc

/-- A cost: a number, of weight units or of nanoseconds (1000 weight units each). -/
inductive Cost where
  | units (n : Nat)
  | nanos (n : Nat)

/-- What a cost is worth. -/
def Cost.value : Cost → Nat
  | .units n => n
  | .nanos n => n * 1000

/-- The names of the constant for the weight of a nanosecond. -/
def PerNano (p : List Str) : Prop :=
  p = [str% "WEIGHT_PER_NANOS"] ∨ p = [str% "WEIGHT_REF_TIME_PER_NANOS"] ∨ p = [str% "constants", str% "WEIGHT_PER_NANOS"]
    ∨ p = [str% "constants", str% "WEIGHT_REF_TIME_PER_NANOS"]

/-- `25_000` or `25_000 * constants::WEIGHT_PER_NANOS`. -/
inductive CostTrees : Cost → List RTree → Prop
  | units {n : Nat} : CostTrees (.units n) [nat' n]
  | nanos {n : Nat} {p : List Str} (hp : PerNano p) : CostTrees (.nanos n) (nat' n :: sy .star :: joinPath p)

/-- Doc comments and attributes. -/
inductive Notes : List RTree → Prop
  | nil : Notes []
  | doc {s : Str} {ts : List RTree} (h : Notes ts) : Notes (.tok (.doc false s) :: ts)
  | attr {us ts : List RTree} (h : Notes ts) : Notes (sy .hash :: .group .bracket us :: ts)

/-- The two fields, in any order, with notes; the last comma can be missing. -/
inductive RwTrees (read write : Cost) : List RTree → Prop
  | mk {x y : Str} {c d : Cost} {ns ms cs ds comma : List RTree}
    (hxy : (x = str% "read" ∧ c = read ∧ y = str% "write" ∧ d = write) ∨ (x = str% "write" ∧ c = write ∧ y = str% "read" ∧ d = read))
    (hn : Notes ns) (hm : Notes ms) (hc : CostTrees c cs) (hd : CostTrees d ds) (hcomma : comma = [] ∨ comma = [sy .comma]) :
    RwTrees read write (ns ++ id' x :: sy .colon :: (cs ++ sy .comma :: (ms ++ id' y :: sy .colon :: (ds ++ comma))))

/-- The name of the constant for the costs of a database. -/
def dbName : Db → Str
  | .rocks => str% "RocksDbWeight"
  | .parity => str% "ParityDbWeight"

/-- `parameter_types! { … const NAME: TYPE = VALUE; }`. -/
inductive ParameterTrees (name ty : Str) (val : List RTree) : List RTree → Prop
  | mk {attrs : List Attr} {at' vis : List RTree} (ha : AttrTrees attrs at') (hv : Vis vis) :
    ParameterTrees name ty val [id' (str% "parameter_types"), sy .bang,
      .group .brace (at' ++ vis ++ id' (str% "const") :: id' name :: sy .colon :: id' ty :: sy .eq :: (val ++ [sy .semi]))]

/-- A file around a definition: imports and other items without a meaning here before it, such items or modules that are not called `constants` after
it, all of it possibly in a module called `constants`. -/
inductive Around (defn : List RTree) : List RTree → Prop
  | here {inner before after : List RTree} {skipped others : List Item} (hi : Inner inner) (hb : ItemsTrees skipped before)
    (hs : ∀ i ∈ skipped, i = .other) (ha : ItemsTrees others after)
    (ho : ∀ i ∈ others, i = .other ∨ ∃ name l, i = .mod name l ∧ name ≠ str% "constants") :
    Around defn (inner ++ (before ++ (defn ++ after)))
  | constants {inner before at' vis body after : List RTree} {skipped others : List Item} {attrs : List Attr} (hi : Inner inner)
    (hb : ItemsTrees skipped before) (hs : ∀ i ∈ skipped, i = .other) (hat : AttrTrees attrs at') (hv : Vis vis) (h : Around defn body)
    (ha : ItemsTrees others after) (ho : ∀ i ∈ others, i = .other ∨ ∃ name l, i = .mod name l ∧ name ≠ str% "constants") :
    Around defn (inner ++ (before ++ (at' ++ vis ++ [id' (str% "mod"), id' (str% "constants"), .group .brace body] ++ after)))

/-- `s` is a text of a file with the costs of a database. -/
def DbFile (db : Db) (read write : Cost) (s : Str) : Prop :=
  ∃ fields defn ts, RwTrees read write fields ∧
    ParameterTrees (dbName db) (str% "RuntimeDbWeight") [id' (str% "RuntimeDbWeight"), .group .brace fields] defn ∧ Around defn ts ∧
    proper ts = true ∧ Layout (toksOf ts) s

/-- Which overhead. -/
inductive Overhead where
  | block
  | extrinsic
  deriving DecidableEq

/-- The name of the constant for an overhead. -/
def Overhead.name : Overhead → Str
  | .block => str% "BlockExecutionWeight"
  | .extrinsic => str% "ExtrinsicBaseWeight"

/-- The three ways in which the benchmarking tool writes `n` nanoseconds and a proof size of `p`. -/
inductive OverheadTrees (n : Nat) : Nat → List RTree → Prop
  | plain {q : List Str} (hq : PerNano q) : OverheadTrees n 0 (nat' n :: sy .star :: joinPath q)
  | refTime {q : List Str} (hq : PerNano q) : OverheadTrees n 0
      [id' (str% "Weight"), sy .path, id' (str% "from_ref_time"), .group .paren (joinPath q ++ callTrees (str% "saturating_mul") [nat' n])]
  | parts {p : Nat} {q : List Str} (hq : PerNano q) : OverheadTrees n p
      [id' (str% "Weight"), sy .path, id' (str% "from_parts"),
        .group .paren (joinPath q ++ callTrees (str% "saturating_mul") [nat' n] ++ sy .comma :: [nat' p])]

/-- `s` is a text of a file with an overhead of `n` nanoseconds and a proof size of `p`. -/
def OverheadFile (o : Overhead) (n p : Nat) (s : Str) : Prop :=
  ∃ val defn ts, OverheadTrees n p val ∧ ParameterTrees o.name (str% "Weight") val defn ∧ Around defn ts ∧ proper ts = true ∧ Layout (toksOf ts) s

end Swc.Spec
