/-
Independent specification of the language of weight functions: which expressions, annotations, functions and files are understood, and which ones are fatal.
-/
import Verif.Spec.PalletFile

namespace Swc.Spec

open Swc

/-! ### Expressions -/

/-- The literal is an integer of this value, below 2^128.  (The standard library would also take a plus sign, which no Rust literal has.) -/
def LitValue (l : Lit) (n : Nat) : Prop :=
  ∃ sign digits, (sign = [] ∨ sign = str% "+") ∧ l = .int (sign ++ digits) ∧ readNat digits = some n ∧ n < 2 ^ 128

/-- The expression is a path which, written out, ends with `::name`. -/
def Calls (name : Str) (func : Expr) : Prop := ∃ segs pre, func = .path segs ∧ joinStr (str% "::") segs = pre ++ str% "::" ++ name

/-- No arguments are given, or they end with a comma. -/
def NoArguments (args : List Expr) (trailing : Bool) : Prop := args = [] ∨ trailing = true

/-- The costs of the database: `T::DbWeight::get()`, or anything ending with `RocksDbWeight::get()` or `ParityDbWeight::get()`. -/
def DbSource (e : Expr) : Prop :=
  ∃ segs trailing, e = .call (.path segs) [] trailing ∧
    (joinStr (str% "::") segs = str% "T::DbWeight::get"
      ∨ ∃ pre, joinStr (str% "::") segs = pre ++ str% "RocksDbWeight::get" ∨ joinStr (str% "::") segs = pre ++ str% "ParityDbWeight::get")

/-- The expression is understood as a number, and this is its equation. -/
inductive Reads1 : Expr → SimpleTerm → Prop
  | lit {l : Lit} {n : Nat} (h : LitValue l n) : Reads1 (.lit l) (.scalar n)
  | name (segs : List Str) : Reads1 (.path segs) (.var (joinStr (str% "::") segs))
  | cast {e : Expr} {t : SimpleTerm} (h : Reads1 e t) : Reads1 (.cast e) t
  | paren {e : Expr} {t : SimpleTerm} (h : Reads1 e t) : Reads1 (.paren e) t
  | refTime {e : Expr} {args : List Expr} {tr : Bool} {t : SimpleTerm} (h : Reads1 e t) (ha : NoArguments args tr) :
      Reads1 (.methodCall e (str% "ref_time") args tr) t
  | into {e : Expr} {args : List Expr} {tr : Bool} {t : SimpleTerm} (h : Reads1 e t) : Reads1 (.methodCall e (str% "into") args tr) t
  | reads {db a : Expr} {tr : Bool} {t : SimpleTerm} (hd : DbSource db) (h : Reads1 a t) :
      Reads1 (.methodCall db (str% "reads") [a] tr) (.mul t (.var (str% "READ")))
  | writes {db a : Expr} {tr : Bool} {t : SimpleTerm} (hd : DbSource db) (h : Reads1 a t) :
      Reads1 (.methodCall db (str% "writes") [a] tr) (.mul t (.var (str% "WRITE")))
  | add {e a : Expr} {tr : Bool} {s t : SimpleTerm} (h1 : Reads1 e s) (h2 : Reads1 a t) :
      Reads1 (.methodCall e (str% "saturating_add") [a] tr) (.add s t)
  | mul {e a : Expr} {tr : Bool} {s t : SimpleTerm} (h1 : Reads1 e s) (h2 : Reads1 a t) :
      Reads1 (.methodCall e (str% "saturating_mul") [a] tr) (.mul s t)
  | fromRefTime {f a : Expr} {tr : Bool} {t : SimpleTerm} (hf : Calls (str% "from_ref_time") f) (h : Reads1 a t) : Reads1 (.call f [a] tr) t
  | zero {f : Expr} {args : List Expr} {tr : Bool} (hf : Calls (str% "zero") f) (ha : NoArguments args tr) : Reads1 (.call f args tr) (.value 0)

/-- The expression cannot be understood as a number because of a literal, and everything that is read before the literal is understood. -/
inductive Fatal1 : Expr → Prop
  | lit {l : Lit} (h : ∀ n, ¬ LitValue l n) : Fatal1 (.lit l)
  | cast {e : Expr} (h : Fatal1 e) : Fatal1 (.cast e)
  | paren {e : Expr} (h : Fatal1 e) : Fatal1 (.paren e)
  | refTime {e : Expr} {args : List Expr} {tr : Bool} (h : Fatal1 e) (ha : NoArguments args tr) : Fatal1 (.methodCall e (str% "ref_time") args tr)
  | into {e : Expr} {args : List Expr} {tr : Bool} (h : Fatal1 e) : Fatal1 (.methodCall e (str% "into") args tr)
  | access {db a : Expr} {m : Str} {tr : Bool} (hm : m = str% "reads" ∨ m = str% "writes") (hd : DbSource db) (h : Fatal1 a) :
      Fatal1 (.methodCall db m [a] tr)
  | left {e : Expr} {m : Str} {args : List Expr} {tr : Bool} (hm : m = str% "saturating_add" ∨ m = str% "saturating_mul") (h : Fatal1 e) :
      Fatal1 (.methodCall e m args tr)
  | right {e a : Expr} {m : Str} {tr : Bool} {s : SimpleTerm} (hm : m = str% "saturating_add" ∨ m = str% "saturating_mul") (h1 : Reads1 e s)
      (h : Fatal1 a) : Fatal1 (.methodCall e m [a] tr)
  | fromRefTime {f a : Expr} {tr : Bool} (hf : Calls (str% "from_ref_time") f) (h : Fatal1 a) : Fatal1 (.call f [a] tr)

/-- How often the database is accessed: a number as it stands, or an equation for time. -/
def CountOf (a : Expr) (t : ChromaticTerm) : Prop :=
  (∃ l n, a = .lit l ∧ LitValue l n ∧ t = .scalar n) ∨ ((∀ l, a ≠ .lit l) ∧ ∃ s, Reads1 a s ∧ t = Term.intoChromatic .time s)

/-- The expression is understood as a weight of time and proof size, and this is its equation. -/
inductive Reads2 : Expr → ChromaticTerm → Prop
  | name (segs : List Str) : Reads2 (.path segs) (.var (joinStr (str% "::") segs))
  | cast {e : Expr} {t : ChromaticTerm} (h : Reads2 e t) : Reads2 (.cast e) t
  | paren {e : Expr} {t : ChromaticTerm} (h : Reads2 e t) : Reads2 (.paren e) t
  | into {e : Expr} {args : List Expr} {tr : Bool} {t : ChromaticTerm} (h : Reads2 e t) : Reads2 (.methodCall e (str% "into") args tr) t
  | reads {db a : Expr} {tr : Bool} {t : ChromaticTerm} (hd : DbSource db) (h : CountOf a t) :
      Reads2 (.methodCall db (str% "reads") [a] tr) (.mul t (.var (str% "READ")))
  | writes {db a : Expr} {tr : Bool} {t : ChromaticTerm} (hd : DbSource db) (h : CountOf a t) :
      Reads2 (.methodCall db (str% "writes") [a] tr) (.mul t (.var (str% "WRITE")))
  | add {e a : Expr} {tr : Bool} {s t : ChromaticTerm} (h1 : Reads2 e s) (h2 : Reads2 a t) :
      Reads2 (.methodCall e (str% "saturating_add") [a] tr) (.add s t)
  | mul {e a : Expr} {tr : Bool} {s t : ChromaticTerm} (h1 : Reads2 e s) (h2 : Reads2 a t) :
      Reads2 (.methodCall e (str% "saturating_mul") [a] tr) (.mul s t)
  | fromRefTime {f a : Expr} {tr : Bool} {t : SimpleTerm} (hf : Calls (str% "from_ref_time") f) (h : Reads1 a t) :
      Reads2 (.call f [a] tr) (Term.intoChromatic .time t)
  | fromProofSize {f a : Expr} {tr : Bool} {t : SimpleTerm} (hf : Calls (str% "from_proof_size") f) (h : Reads1 a t) :
      Reads2 (.call f [a] tr) (Term.intoChromatic .proof t)
  | fromParts {f a c : Expr} {tr : Bool} {s t : SimpleTerm} (hf : Calls (str% "from_parts") f) (h1 : Reads1 a s) (h2 : Reads1 c t) :
      Reads2 (.call f [a, c] tr) (Term.spliceAdd (Term.intoChromatic .time s) (Term.intoChromatic .proof t))
  | zero {f : Expr} {args : List Expr} {tr : Bool} (hf : Calls (str% "zero") f) (ha : NoArguments args tr) :
      Reads2 (.call f args tr) (.value ⟨0, 0⟩)

/-- The expression cannot be understood as a weight because of a literal, and everything that is read before the literal is understood. -/
inductive Fatal2 : Expr → Prop
  | cast {e : Expr} (h : Fatal2 e) : Fatal2 (.cast e)
  | paren {e : Expr} (h : Fatal2 e) : Fatal2 (.paren e)
  | into {e : Expr} {args : List Expr} {tr : Bool} (h : Fatal2 e) : Fatal2 (.methodCall e (str% "into") args tr)
  | access {db a : Expr} {m : Str} {tr : Bool} (hm : m = str% "reads" ∨ m = str% "writes") (hd : DbSource db) (h : Fatal1 a) :
      Fatal2 (.methodCall db m [a] tr)
  | left {e : Expr} {m : Str} {args : List Expr} {tr : Bool} (hm : m = str% "saturating_add" ∨ m = str% "saturating_mul") (h : Fatal2 e) :
      Fatal2 (.methodCall e m args tr)
  | right {e a : Expr} {m : Str} {tr : Bool} {s : ChromaticTerm} (hm : m = str% "saturating_add" ∨ m = str% "saturating_mul") (h1 : Reads2 e s)
      (h : Fatal2 a) : Fatal2 (.methodCall e m [a] tr)
  | one {f a : Expr} {tr : Bool} (hf : Calls (str% "from_ref_time") f ∨ Calls (str% "from_proof_size") f) (h : Fatal1 a) : Fatal2 (.call f [a] tr)
  | first {f a c : Expr} {tr : Bool} (hf : Calls (str% "from_parts") f) (h : Fatal1 a) : Fatal2 (.call f [a, c] tr)
  | second {f a c : Expr} {tr : Bool} {s : SimpleTerm} (hf : Calls (str% "from_parts") f) (h1 : Reads1 a s) (h : Fatal1 c) : Fatal2 (.call f [a, c] tr)

/-- The body of a function is understood: as a weight, or, if that fails, as a number that stands for time. -/
def ReadsBody (e : Expr) (t : ChromaticTerm) : Prop :=
  Reads2 e t ∨ (∀ s, ¬ Reads2 e s) ∧ ¬ Fatal2 e ∧ ∃ s, Reads1 e s ∧ t = Term.intoChromatic .time s

/-- The body of a function is fatal. -/
def FatalBody (e : Expr) : Prop := Fatal1 e ∨ Fatal2 e

/-! ### Annotations -/

/-- The text of a documentation attribute. -/
def Doc (a : Attr) (s : Str) : Prop := ∃ path, a = .nameValue path s ∧ path.flatten = str% "doc"

/-- The first annotation in the text. -/
def FirstAnnotation (cc : CharClass) (s name lo hi : Str) : Prop :=
  ∃ pre, AnnotationAt cc pre s name lo hi ∧ ∀ pre' n l u, AnnotationAt cc pre' s n l u → pre.length ≤ pre'.length

/-- What an attribute says about the range of a component: nothing, or the range in its first annotation, which must be a proper range of `u32` numbers. -/
def Says (cc : CharClass) (a : Attr) : Option (Str × ComponentRange) → Prop
  | none => ∀ s pre name lo hi, Doc a s → ¬ AnnotationAt cc pre s name lo hi
  | some (x, r) => ∃ s lo hi, Doc a s ∧ FirstAnnotation cc s x lo hi ∧ underscored lo = some r.min ∧ underscored hi = some r.max
      ∧ r.min ≤ r.max ∧ r.max < 2 ^ 32

/-- The last of these that is about the component, up to underscores. -/
def lastAbout (x : Str) (l : List (Option (Str × ComponentRange))) : Option ComponentRange :=
  ((l.filterMap id).filter fun p => p.1.filter (· ≠ '_') = x).getLast?.map (·.2)

/-- These are the ranges given by the attributes; `none` if there are none. -/
def Ranges (cc : CharClass) (attrs : List Attr) (ranges : Option ComponentRanges) : Prop :=
  ∃ l, List.Forall₂ (Says cc) attrs l ∧ (ranges = none ↔ ∀ o ∈ l, o = none) ∧ (∀ x, rangeGet ranges x = lastAbout x l)
    ∧ ∀ m, ranges = some m → m.Pairwise fun p q => compare p.1 q.1 = .lt

/-! ### Functions and files -/

/-- `ext` is what is to be extracted from the function. -/
def Yields (cc : CharClass) (pallet : Str) (f : ImplFn) (ext : ChromaticExtrinsic) : Prop :=
  ReturnsWeight f ∧ ext.name = f.name ∧ ext.pallet = pallet ∧ (∃ e, f.stmts = [.expr e] ∧ ReadsBody e ext.term) ∧ Ranges cc f.attrs ext.compRanges

/-- The function is fatal: it returns a weight, and its body is a single statement that is no expression, or a fatal expression. -/
def FatalFn (f : ImplFn) : Prop := ReturnsWeight f ∧ (f.stmts = [.other] ∨ ∃ e, f.stmts = [.expr e] ∧ FatalBody e)

/-- The item is an eligible `impl` block with at least one function, and every function yields an extrinsic. -/
def YieldsAll (cc : CharClass) (pallet : Str) (item : Item) (exts : List ChromaticExtrinsic) : Prop :=
  ∃ ty items, item = .impl ty items ∧ Eligible ty ∧ functions items ≠ [] ∧ List.Forall₂ (Yields cc pallet) (functions items) exts

/-- The item is an eligible `impl` block with a fatal function, before which every function yields an extrinsic. -/
def FatalItem (cc : CharClass) (item : Item) : Prop :=
  ∃ ty items fs f gs, item = .impl ty items ∧ Eligible ty ∧ functions items = fs ++ f :: gs ∧ (∀ g ∈ fs, ∃ p x, Yields cc p g x) ∧ FatalFn f

/-- Nothing can be got from the item, but it does no harm. -/
def Passed (cc : CharClass) (item : Item) : Prop := ¬ FatalItem cc item ∧ ∀ p x, ¬ YieldsAll cc p item x

/-- The text can be read as Rust and contains a fatal block, before which everything is passed over. -/
def FatalText (syn : SynParser) (cc : CharClass) (content : Str) : Prop :=
  ∃ pre i post, syn content = .ok (pre ++ i :: post) ∧ FatalItem cc i ∧ ∀ j ∈ pre, Passed cc j

/-- The file contains a fatal text. -/
def FatalFile (env : Env) (fs : Fs) (file : Path) : Prop := ∃ content, fs file = .ok content ∧ FatalText env.syn env.cc content

/-- The file can be read as Rust and contains a block that yields these extrinsics under the given name, before which everything is passed over. -/
def UnderstoodFile (env : Env) (fs : Fs) (file : Path) (pallet : Str) (exts : List ChromaticExtrinsic) : Prop :=
  ∃ content pre i post, fs file = .ok content ∧ env.syn content = .ok (pre ++ i :: post) ∧ YieldsAll env.cc pallet i exts ∧ ∀ j ∈ pre, Passed env.cc j

/-- The file cannot be read, is not a Rust program, or has nothing but what is passed over. -/
def RefusedFile (env : Env) (fs : Fs) (file : Path) : Prop :=
  (∃ e, fs file = .error e) ∨ ∃ content, fs file = .ok content ∧
    ((∃ e, env.syn content = .error e) ∨ ∃ items, env.syn content = .ok items ∧ ∀ j ∈ items, Passed env.cc j)

end Swc.Spec
