/-
Independent specification of what the command line tool prints of a report.
-/
import Verif.Spec.Equation
import Verif.Spec.Report
import Verif.Props.CompareFiles
import Verif.Props.Sort
import Verif.Model.Cli
import Verif.Model.CommandLine

namespace Swc.Spec

open Swc Term

/-- The entry is an error. -/
def Failed (e : ExtrinsicDiff) : Prop := ∃ m, e.change = .failed m

/-- The entries that are to be printed, each as often as in the report: errors first, then the others that pass the filter, the highest first. -/
structure Arranged (filter : FilterParams) (all listed : List ExtrinsicDiff) : Prop where
  kept : ∃ kept : ExtrinsicDiff → Bool, (∀ e, kept e = true ↔ Kept filter e) ∧ listed.Perm (all.filter kept)
  order : listed.Pairwise fun a b => Failed a ∨ ¬ Failed b ∧ sortKey b ≤ sortKey a

/-- The cells of the row of an entry; `scope` is how variables are printed. -/
def CellsFor (scope : SimpleScope → Str) (f : FormatParams) (unit : Dimension) (nm : Str → Str) (e : ExtrinsicDiff) (row : List Str) : Prop :=
  (Failed e ∧ row = [nm e.file, e.name, str% "-", str% "-", str% "ERROR"]) ∨
  ∃ c, numbers e.change = some c ∧ RowFor unit f.noColor (nm e.file) e.name c (row.take 5) ∧
    TermCells f.printTerms scope c (row.drop 5)

/-- The table of a report. -/
structure TableOf (scope : SimpleScope → Str) (f : FormatParams) (filter : FilterParams) (unit : Dimension) (nm : Str → Str) (all : List ExtrinsicDiff) (t : TableOut) : Prop where
  header : t.header = [str% "File", str% "Extrinsic", str% "Old", str% "New", str% "Change [%]"] ++
    if f.printTerms then [str% "Old Weight Term", str% "New Weight Term", str% "Used variables"] else []
  rows : ∃ listed, Arranged filter all listed ∧ List.Forall₂ (CellsFor scope f unit nm) listed t.rows

/-- The comma separated values of a report: without errors. -/
def CsvOf (f : FormatParams) (filter : FilterParams) (unit : Dimension) (all : List ExtrinsicDiff) (text : Str) : Prop :=
  ∃ errors listed rows, Arranged filter all (errors ++ listed) ∧ (∀ e ∈ errors, Failed e) ∧
    readCsv text = [str% "File", str% "Extrinsic", str% "Old", str% "New", str% "Change Percent"] :: rows ++ [[[]]] ∧
    List.Forall₂ (fun e row => ∃ c, numbers e.change = some c ∧ RowFor unit f.noColor e.file e.name c row) listed rows

/-- What is printed of a report; `nm` is how files are called in tables, `scope` how variables are printed. -/
inductive Displays (scope : SimpleScope → Str) (f : FormatParams) (filter : FilterParams) (unit : Dimension) (nm : Str → Str)
    (all : List ExtrinsicDiff) : Shown → Prop
  | nothing (h : ∀ e ∈ all, ¬ Kept filter e) : Displays scope f filter unit nm all .nothing
  | table {t : TableOut} {e : ExtrinsicDiff} (hf : f.format = .human ∨ f.format = .markdown) (he : e ∈ all) (hk : Kept filter e)
    (ht : TableOf scope f filter unit nm all t) : Displays scope f filter unit nm all (.table t (decide (f.format = .markdown)))
  | csv {text : Str} {e : ExtrinsicDiff} (hf : f.format = .csv) (he : e ∈ all) (hk : Kept filter e) (ht : CsvOf f filter unit all text) :
    Displays scope f filter unit nm all (.csv text)

/-! ### What the rows say of the files -/

/-- A text of the cost of a function: it spells an equation in its parameters and in storage accesses that, read with the usual precedence, says what the function costs. -/
def CostText (f : GenFn) (d : Dimension) (text : Str) : Prop :=
  ∃ ks parts u, List.Forall₂ Spelled ks parts ∧ text = parts.flatten ∧
    (∀ v, .ident v ∈ ks → v = str% "READ" ∨ v = str% "WRITE" ∨ v ∈ f.comps) ∧ readEquation ks = some u ∧ ∀ rt : Runtime, denote (rt.env d) u = f.cost rt d

/-- The cell of the equation of a version, if there is such a version. -/
def CostCell (f : Option GenFn) (d : Dimension) (cell : Str) : Prop :=
  match f with
  | none => cell = str% "-"
  | some f => f.Counts → CostText f d cell

/-- A text of the values of variables: `name = value` for each of them, in ascending order, with commas. -/
def ScopeText (vals : Str → Option Nat) (text : Str) : Prop :=
  ∃ names parts, names.Pairwise (· < ·) ∧ (∀ x, x ∈ names ↔ vals x ≠ none) ∧
    List.Forall₂ (fun x part => ∃ v s, vals x = some v ∧ (v < 2 ^ 128 → GoodRendering scalarUnits v s) ∧ part = x ++ str% " = " ++ s) names parts ∧
    text = (str% ", ").intercalate parts

open Classical in
/-- The values for these parameters that there are: of the storage costs and of the components of the versions. -/
noncomputable def valuesAt (old new : Option GenFn) (d : Dimension) (rt : Runtime) (x : Str) : Option Nat :=
  if x = str% "READ" ∨ x = str% "WRITE" ∨ Param old new x then some (rt.env d x) else none

/-- The right numbers for the call `p::e`. -/
def RightNumbers (m : CompareMethod) (d : Dimension) (olds news : List Located) (p e : Str) (r : TermChange) : Prop :=
  Reported m ((first olds p e).map (·.fn)) ((first news p e).map (·.fn)) d r ∧ KindOf (first olds p e) (first news p e) d r.change

/-- The call cannot be compared. -/
def Hopeless (m : CompareMethod) (olds news : List Located) (p e : Str) : Prop :=
  Incomparable m ((first olds p e).map (·.fn)) ((first news p e).map (·.fn))

/-- The right row for the call `p::e`. -/
def RightRow (scope : SimpleScope → Str) (f : FormatParams) (filter : FilterParams) (nm : Str → Str) (m : CompareMethod) (d : Dimension) (olds news : List Located)
    (p e : Str) (row : List Str) : Prop :=
  (Hopeless m olds news p e ∧ row = [nm p, e, str% "-", str% "-", str% "ERROR"]) ∨
  (¬ Hopeless m olds news p e ∧ ∃ r, RightNumbers m d olds news p e r ∧ Kept filter ⟨e, p, .changed r⟩ ∧ RowFor d f.noColor (nm p) e r (row.take 5) ∧
    if f.printTerms then ∃ old new, row.drop 5 = [old, new, scope r.scope] ∧ CostCell ((first olds p e).map (·.fn)) d old ∧
        CostCell ((first news p e).map (·.fn)) d new
      else row.drop 5 = [])

/-- These calls are in the files and pass the filters by name, and there are no others that must not be missing: those that cannot be compared (if
`errors`), and those with numbers that pass the filter by change. -/
structure AllCalls (rx : RegexEngine) (filter : FilterParams) (m : CompareMethod) (d : Dimension) (olds news : List Located) (errors : Bool)
    (calls : List (Str × Str)) : Prop where
  once : calls.Nodup
  there : ∀ c ∈ calls, (∃ x, (x ∈ olds ∨ x ∈ news) ∧ x.file = c.1 ∧ x.fn.name = c.2) ∧ Selected rx filter c.1 c.2
  all : ∀ x, x ∈ olds ∨ x ∈ news → Selected rx filter x.file x.fn.name →
    (Hopeless m olds news x.file x.fn.name → ((x.file, x.fn.name) ∈ calls ↔ errors = true)) ∧
    (¬ Hopeless m olds news x.file x.fn.name → ∃ r, RightNumbers m d olds news x.file x.fn.name r ∧
      ((x.file, x.fn.name) ∈ calls ↔ Kept filter ⟨x.fn.name, x.file, .changed r⟩))

/-- The command has `--strip-path-prefix` with this pattern. -/
def Strips : Command → Str → Prop
  | .compareFiles _ _ f _ _, p => f.stripPathPrefix = some p
  | .compareCommits _ _ f _ _ _ _, p => f.stripPathPrefix = some p
  | .parseFiles _, _ => False

end Swc.Spec
