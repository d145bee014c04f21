/-
Independent specification of the report on two revisions whose files are generated weight files: which calls it is about, which of them cannot be
compared, and which numbers it shows for the others, all in terms of the numbers that are written in the files.
-/
import Verif.Spec.WeightFile
import Verif.Spec.Git
import Verif.Spec.Files
import Verif.Spec.Messages
import Verif.Spec.Reader

namespace Swc.Spec

open Swc

/-! ### Two versions of a call, at most one of them missing -/

/-- The documented ranges of a component in the versions that there are. -/
def ranges (old new : Option GenFn) (c : Str) : List ComponentRange := (old.toList ++ new.toList).filterMap fun f => rangeIn c f.docs

/-- The smallest documented value of a component, 0 if there is none. -/
def lowest (old new : Option GenFn) (c : Str) : Nat := ((ranges old new c).map (·.min)).min?.getD 0

/-- The largest documented value of a component, 100 if there is none. -/
def highest (old new : Option GenFn) (c : Str) : Nat := ((ranges old new c).map (·.max)).max?.getD 100

/-- RocksDB storage costs, and these parameters. -/
def point (v : Str → Nat) : Runtime := ⟨v, 25000000, 100000000⟩

/-- RocksDB storage costs, and parameters in the documented ranges. -/
def Within (old new : Option GenFn) (rt : Runtime) : Prop :=
  rt.read = 25000000 ∧ rt.write = 100000000 ∧ ∀ c, lowest old new c ≤ rt.comp c ∧ rt.comp c ≤ highest old new c

/-- The components of a function. -/
def GenFn.comps (f : GenFn) : List Str := f.summands.flatMap Summand.comps

/-- A component of one of the versions. -/
def Param (old new : Option GenFn) (c : Str) : Prop := ∃ f, (old = some f ∨ new = some f) ∧ c ∈ f.comps

/-- The variables that are listed are the storage costs and the components of the versions, with the values that they have for these parameters,
in ascending order. -/
def ListsAt (old new : Option GenFn) (d : Dimension) (rt : Runtime) (s : SimpleScope) : Prop :=
  (s.map (·.1)).Pairwise (· < ·) ∧ ∀ x u, binding s x = some u ↔ (x = str% "READ" ∨ x = str% "WRITE" ∨ Param old new x) ∧ u = .scalar (rt.env d x)

/-- The report shows what the versions cost for these parameters, the change between the two, and the parameters. -/
def ReportsAt (old new : Option GenFn) (d : Dimension) (rt : Runtime) (r : TermChange) : Prop :=
  r.oldV = old.map (·.cost rt d) ∧ r.newV = new.map (·.cost rt d) ∧
  r.percent = percent ((old.map (·.cost rt d)).getD 0) ((new.map (·.cost rt d)).getD 0) ∧ ListsAt old new d rt r.scope

/-- No storage accesses that are multiplied by the number 0. -/
def GenFn.Counts (f : GenFn) : Prop := ∀ c, .readsPer 0 c ∉ f.summands ∧ .writesPer 0 c ∉ f.summands

/-- The equation that is shown for a version: it says what the version costs, in terms of its parameters and of storage accesses, and can be printed (if the function does not multiply storage accesses by 0). -/
def EquationFor (d : Dimension) : Option GenFn → Option SimpleTerm → Prop
  | none, none => True
  | some f, some t => (∀ rt : Runtime, denote (rt.env d) t = f.cost rt d) ∧ (f.Counts → Printable true t) ∧
      ∀ v, Occurs v t → v = str% "READ" ∨ v = str% "WRITE" ∨ v ∈ f.comps
  | _, _ => False

/-- What the report shows.  The methods `asymptotic` and `exact-asymptotic`: the costs for the largest parameters.  The method `base`: for the smallest.
The methods `guess-worst` and `exact-worst`: for a call with two versions the costs for parameters for which the change is the largest, for a call
with one version those for the smallest parameters. -/
def Reported (m : CompareMethod) (old new : Option GenFn) (d : Dimension) (r : TermChange) : Prop :=
  match m with
  | .asymptotic | .exactAsymptotic => ReportsAt old new d (point (highest old new)) r
  | .base => ReportsAt old new d (point (lowest old new)) r
  | .guessWorst | .exactWorst =>
    match old, new with
    | some f, some g =>
      (∀ rt, Within (some f) (some g) rt → rank (percent (f.cost rt d) (g.cost rt d)) ≤ rank r.percent) ∧
      ∃ rt, Within (some f) (some g) rt ∧ ReportsAt (some f) (some g) d rt r
    | old, new => ReportsAt old new d (point (lowest old new)) r

/-- The comparison is refused: more than 16 components, or, for the exact methods, a component without a range or with two different ones. -/
def Incomparable (m : CompareMethod) (old new : Option GenFn) : Prop :=
  MoreThan 16 (Param old new) ∨
  (m = .exactWorst ∨ m = .exactAsymptotic) ∧ ∃ c, Param old new c ∧ ¬ ∃ r, ranges old new c ≠ [] ∧ ∀ r' ∈ ranges old new c, r' = r

/-- The largest cost that the tool computes with: 128 bits, or, where it looks for the largest change, what floating point numbers can represent. -/
def costLimit : CompareMethod → Nat
  | .guessWorst | .exactWorst => 2 ^ 53
  | _ => 2 ^ 128

/-- The versions do not cost more than that. -/
def Sized (m : CompareMethod) (old new : Option GenFn) (d : Dimension) : Prop :=
  ∀ f, old = some f ∨ new = some f → f.cost (point (highest old new)) d < costLimit m

/-! ### All calls of a revision -/

/-- A function, the file it is in, and the style of that file. -/
structure Located where
  file : Str
  style : Style
  fn : GenFn

/-- The kind of the change: new, gone, or both versions are there.  If it is called unchanged then the two cost the same for all parameters (that do
not distinguish components by underscores in their names), unless a component is called like a storage cost up to underscores.  Two versions with the
same summands in the same style are called unchanged. -/
def KindOf (old new : Option Located) (d : Dimension) (k : RelativeChange) : Prop :=
  (k = .added ↔ old = none) ∧ (k = .removed ↔ new = none) ∧
  ∀ x y, old = some x → new = some y →
    (k = .unchanged → (∀ c, Param (some x.fn) (some y.fn) c → c.filter (· ≠ '_') ≠ str% "READ" ∧ c.filter (· ≠ '_') ≠ str% "WRITE") →
      ∀ rt : Runtime, (∀ a b : Str, a.filter (· ≠ '_') = b.filter (· ≠ '_') → rt.comp a = rt.comp b) → x.fn.cost rt d = y.fn.cost rt d) ∧
    (x.style = y.style → x.fn.time = y.fn.time → x.fn.proof = y.fn.proof → x.fn.summands = y.fn.summands → k = .unchanged)

/-- The functions in these files, which are called by their names as `named` says.  All files are generated weight files; if errors are to be ignored there
may also be files without any `impl` block. -/
inductive FunctionsBy (fs : Fs) (named : Path → Str → Prop) (lenient : Bool) : List Path → List Located → Prop
  | nil : FunctionsBy fs named lenient [] []
  | file {path : Path} {content name : Str} {style : Style} {fns : List GenFn} {files : List Path} {l : List Located}
    (hc : fs path = .ok content) (hg : GenFile style fns content) (hne : fns ≠ []) (hok : ∀ f ∈ fns, f.Ok style)
    (hn : named path name) (hl : FunctionsBy fs named lenient files l) :
    FunctionsBy fs named lenient (path :: files) (fns.map (⟨name, style, ·⟩) ++ l)
  | other {path : Path} {content name : Str} {items : List Item} {files : List Path} {l : List Located} (hlen : lenient = true)
    (hc : fs path = .ok content) (hi : FileText items content) (hno : ∀ i ∈ items, ∀ ty its, i ≠ .impl ty its)
    (hn : named path name) (hl : FunctionsBy fs named lenient files l) :
    FunctionsBy fs named lenient (path :: files) l

/-- The functions in these files of a repository; the names of the files are relative to it. -/
abbrev FunctionsOf (fs : Fs) (repo : Path) (lenient : Bool) : List Path → List Located → Prop :=
  FunctionsBy fs (fun path name => PathStripping.repoRelative.strip repo path = .ok name) lenient

/-- The functions in these files; only the last part of a path is taken for the name of the file. -/
abbrev FunctionsIn (fs : Fs) (lenient : Bool) : List Path → List Located → Prop :=
  FunctionsBy fs (fun path name => ∃ dir, path = dir ++ [.normal name]) lenient

/-- The first function with this file and name. -/
def first (l : List Located) (p e : Str) : Option Located := l.find? fun x => x.file = p ∧ x.fn.name = e

/-- A constant number of reads of the function, if it is in a file in the current style. -/
def Located.Reads (x : Located) (n : Nat) : Prop := x.style = .parts ∧ .reads n ∈ x.fn.summands

/-- A constant number of writes of the function, if it is in a file in the current style. -/
def Located.Writes (x : Located) (n : Nat) : Prop := x.style = .parts ∧ .writes n ∈ x.fn.summands

/-- One of these numbers is greater than 1000. -/
def Located.Excessive (x : Located) : Prop := ∃ n, 1000 < n ∧ (x.Reads n ∨ x.Writes n)

/-- The right entry for the call `p::e`, given its versions: an error with the true reason if the comparison is refused, else the numbers, with a warning
if the newest version has too many storage accesses. -/
def Entered (m : CompareMethod) (d : Dimension) (p e : Str) (old new : Option Located) (c : TermDiff) : Prop :=
  (Incomparable m (old.map (·.fn)) (new.map (·.fn)) ∧ ∃ msg, c = .failed msg ∧
    Reason m p e (Param (old.map (·.fn)) (new.map (·.fn))) (fun x r => r ∈ ranges (old.map (·.fn)) (new.map (·.fn)) x) msg) ∨
  (¬ Incomparable m (old.map (·.fn)) (new.map (·.fn)) ∧ ∃ r, Reported m (old.map (·.fn)) (new.map (·.fn)) d r ∧
    KindOf old new d r.change ∧ EquationFor d (old.map (·.fn)) r.old ∧ EquationFor d (new.map (·.fn)) r.new ∧
    (((∀ x ∈ new.or old, ¬ x.Excessive) ∧ c = .changed r) ∨
      ∃ x ∈ new.or old, x.Excessive ∧ ∃ msg, c = .warning r msg ∧ Warns p e x.Reads x.Writes msg))

/-- The complete report on two revisions with these functions: in ascending order by file and name, one entry for each of them that passes the
filters, and the right one. -/
def CompleteReport (rx : RegexEngine) (filter : FilterParams) (m : CompareMethod) (d : Dimension) (olds news : List Located) (diff : List ExtrinsicDiff) : Prop :=
  (diff.map fun e => (e.file, e.name)).Pairwise Before ∧
  (∀ p e, (∃ x ∈ diff, x.file = p ∧ x.name = e) ↔ (∃ x, (x ∈ olds ∨ x ∈ news) ∧ x.file = p ∧ x.fn.name = e) ∧ Selected rx filter p e) ∧
  ∀ x ∈ diff, Entered m d x.file x.name (first olds x.file x.name) (first news x.file x.name) x.change

/-- All of them can be compared with the numbers that the tool has. -/
def AllSized (m : CompareMethod) (d : Dimension) (olds news : List Located) : Prop :=
  ∀ p e, Sized m ((first olds p e).map (·.fn)) ((first news p e).map (·.fn)) d

end Swc.Spec
