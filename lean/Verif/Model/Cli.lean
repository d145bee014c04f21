/-
Model of the output of the command line tool (`cli/src/main.rs`).

`comfy_table` is not modelled: a table is its header and its rows of cells.  The regex engine behind `--strip-path-prefix` and the
derived `Debug` text of a scope are parameters.
-/
import Verif.Model.Sort
import Verif.Model.Git

namespace Swc

/-- `cli/src/main.rs:143-154` `enum OutputFormat`. -/
inductive OutputFormat where
  | human
  | briefHuman
  | csv
  | json
  | markdown
  deriving DecidableEq, Repr

/-- `cli/src/main.rs:106-126` `struct FormatParams`. -/
structure FormatParams where
  format : OutputFormat
  printTerms : Bool
  noColor : Bool
  stripPathPrefix : Option Str

/-- `cli/src/main.rs:364-368` `enum AnsiColor`. -/
inductive AnsiColor where
  | white
  | red
  | green
  deriving DecidableEq

/-- The character `\x1b`. -/
def esc : Char := Char.ofNat 27

/-- `cli/src/main.rs:387-393` `AnsiColor::paint`. -/
def AnsiColor.paint : AnsiColor → Str → Str
  | .white, s => [esc] ++ str% "[37m" ++ s ++ [esc] ++ str% "[0m"
  | .red, s => [esc] ++ str% "[31m" ++ s ++ [esc] ++ str% "[0m"
  | .green, s => [esc] ++ str% "[32m" ++ s ++ [esc] ++ str% "[0m"

/-- `cli/src/main.rs:396-403` `maybe_color`. -/
def maybeColor (clr : AnsiColor) (msg : Str) (noColor : Bool) : Str := if noColor then msg else clr.paint msg

/-- `format!("{:+5.2}", p)`: two digits after the point, a sign always (not for NaN), padded on the left to five characters.
(`-0.0` would print `-0.00`; the float model has one zero only, see `Model/F64`.) -/
def F64.fmtSigned : F64 → Str
  | .nan => str% "  NaN"
  | .pinf => str% " +inf"
  | .ninf => str% " -inf"
  | .fin q =>
    let s := if q < 0 then str% "-" ++ F64.fmt2Nonneg (-q) else str% "+" ++ F64.fmt2Nonneg q
    List.replicate (5 - s.length) ' ' ++ s

/-- `cli/src/main.rs:370-384` `color_percent`. -/
def colorPercent (p : F64) (change : RelativeChange) (noColor : Bool) : Str :=
  match change with
  | .unchanged => str% "Unchanged"
  | .added => maybeColor .red (str% "Added") noColor
  | .removed => maybeColor .green (str% "Removed") noColor
  | .changed =>
    let s := F64.fmtSigned p
    if F64.lt p (.fin 0) then maybeColor .green s noColor
    else if F64.lt (.fin 0) p then maybeColor .red s noColor
    else maybeColor .white s noColor

/-- The external parts used for printing. -/
structure PrintEnv where
  /-- `fancy_regex::Regex::new(p)` and then `replace_all(path, "")`; `none` if the pattern does not compile.  A run-time error of the
  engine (backtracking limit) makes `replace_all` panic. -/
  strip : Str → Option (Str → Res Str)
  /-- `format!("{:?}", scope)`. -/
  debugScope : SimpleScope → Str

/-- `cli/src/main.rs:129-136` `FormatParams::filter_path`; an invalid regex is a panic (`expect`). -/
def filterPath (env : PrintEnv) (f : FormatParams) (path : Str) : Res Str :=
  match f.stripPathPrefix with
  | none => .ok path
  | some p => match env.strip p with
    | none => .panic
    | some g => g path

/-- `change.old_v.map(|v| unit.fmt_value(v)).unwrap_or_default()`. -/
def valueCell (unit : Dimension) : Option Nat → Str
  | some v => unit.fmtValue v
  | none => []

/-- `change.old.as_ref().map(|t| format!("{}", t)).unwrap_or_else(|| "-".into())`. -/
def termCell : Option SimpleTerm → Str
  | some t => Term.display Dimension.fmtScalar t
  | none => str% "-"

/-- `cli/src/main.rs:270,335`: the rows with a change, with the change. -/
def termRows (diff : List ExtrinsicDiff) : List (ExtrinsicDiff × TermChange) := diff.filterMap fun e => e.term.map fun t => (e, t)

/-- `str.replace(',', " ")`. -/
def noCommas (s : Str) : Str := s.map fun c => if c = ',' then ' ' else c

/-- `cli/src/main.rs:271-294`: one line of the CSV output. -/
def csvRow (env : PrintEnv) (f : FormatParams) (unit : Dimension) (info : ExtrinsicDiff) (change : TermChange) : Str :=
  info.file ++ str% "," ++ info.name ++ str% "," ++ valueCell unit change.oldV ++ str% "," ++ valueCell unit change.newV ++ str% ","
    ++ colorPercent change.percent change.change f.noColor
    ++ (if f.printTerms then termCell change.old ++ str% "," ++ termCell change.new ++ str% "," ++ noCommas (env.debugScope change.scope)
        else [])
    ++ str% "\n"

/-- `cli/src/main.rs:251-298` `print_changes_csv`, without the notice for an empty report (see `printChanges`). -/
def printChangesCsv (env : PrintEnv) (diff : List ExtrinsicDiff) (f : FormatParams) (unit : Dimension) : Str :=
  if diff.isEmpty then []
  else str% "File,Extrinsic,Old,New,Change Percent" ++ (if f.printTerms then str% ",Old Weight Term,New Weight Term,Used variables" else [])
    ++ str% "\n" ++ (termRows diff).flatMap fun p => csvRow env f unit p.1 p.2

/-- Header and rows given to `comfy_table`. -/
structure TableOut where
  header : List Str
  rows : List (List Str)
  deriving DecidableEq

/-- `cli/src/main.rs:324-333`: the row of an error. -/
def errorRow (env : PrintEnv) (f : FormatParams) (info : ExtrinsicDiff) : Res (List Str) := do
  let file ← filterPath env f info.file
  .ok [file, info.name, str% "-", str% "-", str% "ERROR"]

/-- `cli/src/main.rs:335-352`: the row of a change. -/
def changeRow (env : PrintEnv) (f : FormatParams) (unit : Dimension) (info : ExtrinsicDiff) (change : TermChange) : Res (List Str) := do
  let file ← filterPath env f info.file
  .ok ([file, info.name, valueCell unit change.oldV, valueCell unit change.newV, colorPercent change.percent change.change f.noColor]
    ++ if f.printTerms then [termCell change.old, termCell change.new, env.debugScope change.scope] else [])

/-- `cli/src/main.rs:300-354` `print_changes_human`; `none` is the empty output of an empty report. -/
def printChangesHuman (env : PrintEnv) (diff : List ExtrinsicDiff) (f : FormatParams) (unit : Dimension) : Res (Option TableOut) :=
  if diff.isEmpty then .ok none
  else do
    let header := [str% "File", str% "Extrinsic", str% "Old", str% "New", str% "Change [%]"]
      ++ if f.printTerms then [str% "Old Weight Term", str% "New Weight Term", str% "Used variables"] else []
    let errors ← (diff.filter fun e => e.error.isSome).mapM (errorRow env f)
    let changes ← (termRows diff).mapM fun p => changeRow env f unit p.1 p.2
    .ok (some ⟨header, errors ++ changes⟩)

/-- What the tool shows. -/
inductive Shown where
  /-- The text `No changes found.` (logged instead if `verbose`) and an empty line. -/
  | nothing
  | csv (text : Str)
  | table (t : TableOut) (markdown : Bool)
  deriving DecidableEq

/-- `cli/src/main.rs:233-248` `print_changes`. -/
def printChanges (env : PrintEnv) (diff : List ExtrinsicDiff) (f : FormatParams) (unit : Dimension) : Res Shown :=
  match f.format with
  | .human => do
    let t ← printChangesHuman env diff f unit
    .ok (match t with | some t => .table t false | none => .nothing)
  | .markdown => do
    let t ← printChangesHuman env diff f unit
    .ok (match t with | some t => .table t true | none => .nothing)
  | .csv => .ok (if diff.isEmpty then .nothing else .csv (printChangesCsv env diff f unit))
  | _ => .err (str% "Unsupported output format")

/-- `cli/src/main.rs:202-205,218-221`: what both `compare` commands do with the list of changes. -/
def showDiff (penv : PrintEnv) (f : FormatParams) (filter : FilterParams) (unit : Dimension) (diff : List ExtrinsicDiff) : Res Shown :=
  printChanges penv (sortChanges (filterChanges diff filter)).reverse f unit

/-- `cli/src/main.rs:189-206`: `subweight compare files`. -/
def cliCompareFiles (b : Build) (ho : HashOrder) (rx : RegexEngine) (env : Env) (penv : PrintEnv) (fs : Fs) (params : CompareParams)
    (filter : FilterParams) (f : FormatParams) (old new : List Path) : Res Shown := do
  let olds ← if params.ignoreErrors then tryParseFiles env fs old else parseFiles env fs old
  let news ← if params.ignoreErrors then tryParseFiles env fs new else parseFiles env fs new
  let diff ← compareFiles b ho rx olds news params filter
  showDiff penv f filter params.unit diff

/-- `usize::MAX` (64 bit). -/
def usizeMax : Nat := 2 ^ 64 - 1

/-- `cli/src/main.rs:207-222`: `subweight compare commits`. -/
def cliCompareCommits {W : World} (b : Build) (ho : HashOrder) (rx : RegexEngine) (env : Env) (penv : PrintEnv) (repo : Path) (old new : Str)
    (params : CompareParams) (filter : FilterParams) (f : FormatParams) (pattern : Str) : Act W Shown := do
  let diff ← compareCommits b ho rx env repo old new params filter pattern usizeMax
  Act.lift (showDiff penv f filter params.unit diff)

/-- `cli/src/main.rs:223-227`: `subweight parse files`; the two lines printed (the second only if all files were parsed). -/
def cliParseFiles (env : Env) (fs : Fs) (files : List Path) : Str × Res Str :=
  (str% "Trying to parse " ++ natToStr files.length ++ str% " files...", do
    let parsed ← parseFiles env fs files
    .ok (str% "Parsed " ++ natToStr parsed.length ++ str% " files successfully"))

end Swc
