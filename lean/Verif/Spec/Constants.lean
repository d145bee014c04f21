/-
Independent specification of the language of storage and overhead files: which constants are understood, which ones are fatal, and as what a file counts.
-/
import Verif.Spec.ConstFile
import Verif.Spec.Language

namespace Swc.Spec

open Swc

/-! ### Storage -/

/-- The expression is a sum or product of integers and names, and this is its equation. -/
inductive ReadsSum : Expr → SimpleTerm → Prop
  | lit {l : Lit} {n : Nat} (h : LitValue l n) : ReadsSum (.lit l) (.scalar n)
  | name (segs : List Str) : ReadsSum (.path segs) (.var (joinStr (str% "::") segs))
  | mul {l r : Expr} {s t : SimpleTerm} (h1 : ReadsSum l s) (h2 : ReadsSum r t) : ReadsSum (.binary l .mul r) (.mul s t)
  | add {l r : Expr} {s t : SimpleTerm} (h1 : ReadsSum l s) (h2 : ReadsSum r t) : ReadsSum (.binary l .add r) (.add s t)

/-- The expression has a literal that is no integer below 2^128, and all operands before it are understood.  The operators do not matter. -/
inductive FatalSum : Expr → Prop
  | lit {l : Lit} (h : ∀ n, ¬ LitValue l n) : FatalSum (.lit l)
  | left {l r : Expr} (op : BinOp) (h : FatalSum l) : FatalSum (.binary l op r)
  | right {l r : Expr} (op : BinOp) {s : SimpleTerm} (h1 : ReadsSum l s) (h : FatalSum r) : FatalSum (.binary l op r)

/-- The constant says what reading and writing costs. -/
def DbConst (c : ConstDef) (w : StorageWeights) : Prop :=
  ∃ read write, IsDbWeight c w.db read write ∧ ReadsSum read w.weights.read ∧ ReadsSum write w.weights.write

/-- The constant should say what reading and writing costs, but one of the two is fatal; reading comes first, wherever it stands. -/
def FatalDbConst (c : ConstDef) : Prop :=
  ∃ db read write, IsDbWeight c db read write ∧ (FatalSum read ∨ (∃ t, ReadsSum read t) ∧ FatalSum write)

/-! ### Overhead -/

/-- The expression is understood as a weight, or is a sum or product of two numbers, which stands for time. -/
def ReadsOverhead (e : Expr) (t : ChromaticTerm) : Prop :=
  Reads2 e t ∨ ∃ l r s u, Reads1 l s ∧ Reads1 r u ∧
    (e = .binary l .mul r ∧ t = Term.intoChromatic .time (.mul s u) ∨ e = .binary l .add r ∧ t = Term.intoChromatic .time (.add s u))

/-- The expression is fatal as a weight, or has two operands, of which the first is fatal, or understood while the second is fatal. -/
def FatalOverhead (e : Expr) : Prop :=
  Fatal2 e ∨ ∃ l op r, e = .binary l op r ∧ (Fatal1 l ∨ (∃ s, Reads1 l s) ∧ Fatal1 r)

/-- The constant is the weight of an empty block or extrinsic. -/
def OverheadConst (c : ConstDef) (w : OverheadWeight) : Prop := ∃ t, IsOverhead c t w ∧ ReadsOverhead c.value t

/-- The constant is any `Weight`, whatever its name, with a fatal value. -/
def FatalOverheadConst (c : ConstDef) : Prop :=
  (∃ lead segs, c.ty = .path lead segs ∧ segs.flatten = str% "Weight") ∧ FatalOverhead c.value

/-! ### Files -/

/-- What a kind of constants consists of: what is understood, and what is fatal. -/
structure Kind (α : Type) where
  good : ConstDef → α → Prop
  fatal : ConstDef → Prop

/-- Storage weights. -/
def storageKind : Kind StorageWeights := ⟨DbConst, FatalDbConst⟩

/-- Overhead weights. -/
def overheadKind : Kind OverheadWeight := ⟨OverheadConst, FatalOverheadConst⟩

/-- The constant is neither understood nor fatal. -/
def Kind.Skipped {α : Type} (k : Kind α) (c : ConstDef) : Prop := ¬ k.fatal c ∧ ∀ w, ¬ k.good c w

/-- The text can be read as Rust, and this is the value of its first constant that is not skipped. -/
def Kind.Gives {α : Type} (k : Kind α) (syn : SynParser) (content : Str) (w : α) : Prop :=
  ∃ items pre c post, syn content = .ok items ∧ definitionsIn items = pre ++ c :: post ∧ k.good c w ∧ ∀ j ∈ pre, k.Skipped j

/-- The text can be read as Rust, and its first constant that is not skipped is fatal. -/
def Kind.FatalIn {α : Type} (k : Kind α) (syn : SynParser) (content : Str) : Prop :=
  ∃ items pre c post, syn content = .ok items ∧ definitionsIn items = pre ++ c :: post ∧ k.fatal c ∧ ∀ j ∈ pre, k.Skipped j

/-- The text cannot be read as Rust, or all its constants are skipped. -/
def Kind.RefusedIn {α : Type} (k : Kind α) (syn : SynParser) (content : Str) : Prop :=
  (∃ e, syn content = .error e) ∨ ∃ items, syn content = .ok items ∧ ∀ j ∈ definitionsIn items, k.Skipped j

/-- The file can be read, and its text gives this. -/
def Kind.FileGives {α : Type} (k : Kind α) (env : Env) (fs : Fs) (file : Path) (w : α) : Prop :=
  ∃ content, fs file = .ok content ∧ k.Gives env.syn content w

/-- The file can be read, and its text is fatal. -/
def Kind.FatalFile {α : Type} (k : Kind α) (env : Env) (fs : Fs) (file : Path) : Prop :=
  ∃ content, fs file = .ok content ∧ k.FatalIn env.syn content

/-- The file cannot be read, or its text is refused. -/
def Kind.RefusedFile {α : Type} (k : Kind α) (env : Env) (fs : Fs) (file : Path) : Prop :=
  (∃ e, fs file = .error e) ∨ ∃ content, fs file = .ok content ∧ k.RefusedIn env.syn content

/-- As what a file counts: as a file of weight functions if possible, then as one of storage weights, then as one of overhead weights, else as none. -/
def CountsAs (env : Env) (fs : Fs) (repo file : Path) : Option ParsedFile → Prop
  | some (.pallet exts) => UnderstoodFile env fs file (Path.display ((Path.stripPrefix repo file).getD file)) exts
  | some (.storage w) => RefusedFile env fs file ∧ storageKind.FileGives env fs file w
  | some (.overhead w) => RefusedFile env fs file ∧ storageKind.RefusedFile env fs file ∧ overheadKind.FileGives env fs file w
  | none => RefusedFile env fs file ∧ storageKind.RefusedFile env fs file ∧ overheadKind.RefusedFile env fs file

/-- Finding this out is fatal: for the first kind that does not refuse the file. -/
def FatalGuess (env : Env) (fs : Fs) (file : Path) : Prop :=
  FatalFile env fs file ∨ RefusedFile env fs file ∧
    (storageKind.FatalFile env fs file ∨ storageKind.RefusedFile env fs file ∧ overheadKind.FatalFile env fs file)

end Swc.Spec
