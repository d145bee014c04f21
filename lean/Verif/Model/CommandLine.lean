/-
Model of the command lines of both programs: the definitions for `clap` in `cli/src/main.rs:14-126`, `core/src/lib.rs:119-164` and
`web/src/main.rs:35-58`, and the part of `clap` 4.5 that they use (arguments with one or several long names, with one letter, with none, one or
several values, words without a name, `--`, sub-commands, defaults).

In all cases in which `clap` ends the program (help, version, messages about wrong arguments) the result is `none`.  Arguments are assumed to be
UTF-8.  Left out: the options of `env_logger`.
-/
import Verif.Model.Options
import Verif.Model.Startup
import Verif.Model.ParsePallet

namespace Swc

/-- `num_args`: none (flags), one (the default), or any number (`0..`). -/
inductive Takes where
  | none
  | one
  | many
  deriving DecidableEq

/-- The definition of an argument with a name. -/
structure ArgSpec where
  long : Str
  aliases : List Str := []
  short : Option Char := .none
  takes : Takes
  deriving DecidableEq

/-- `--name` or `--name=value`, without the dashes. -/
def splitEq (s : Str) : Str × Option Str :=
  match s.dropWhile (· ≠ '=') with
  | [] => (s, none)
  | _ :: v => (s.takeWhile (· ≠ '='), some v)

/-- An argument whose values are being collected; values that are required have to be there once another argument begins. -/
def closeArg : Option (ArgSpec × List Str) → Option (List (Str × List Str))
  | none => some []
  | some (a, vs) => if a.takes = .one ∧ vs = [] then none else some [(a.long, vs)]

/-- `clap`'s parser for the arguments of a command without sub-commands: the arguments with a name in the order in which they are given, each with its
values, and the words without a name.  `open_` is the argument whose values are being collected.

A word that begins with a dash (and is not only a dash) begins an argument, or `--`, after which all words are without a name.  A value attached with
`=` is the only one of its argument. -/
def scanArgs (specs : List ArgSpec) (open_ : Option (ArgSpec × List Str)) : List Str → Option (List (Str × List Str) × List Str)
  | [] => (closeArg open_).map fun l => (l, [])
  | w :: ws =>
    match w with
    | ['-', '-'] => (closeArg open_).map fun l => (l, ws)
    | '-' :: '-' :: s =>
      match specs.find? (fun a => a.long == (splitEq s).1 || a.aliases.contains (splitEq s).1) with
      | none => none
      | some a => do
        let l ← closeArg open_
        match (splitEq s).2 with
        | none =>
          if a.takes = .none then
            let (m, ps) ← scanArgs specs none ws
            some (l ++ (a.long, []) :: m, ps)
          else
            let (m, ps) ← scanArgs specs (some (a, [])) ws
            some (l ++ m, ps)
        | some v =>
          if a.takes = .none then none
          else
            let (m, ps) ← scanArgs specs none ws
            some (l ++ (a.long, [v]) :: m, ps)
    | '-' :: c :: s =>
      match specs.find? (fun a => a.short == some c) with
      | none => none
      | some a => do
        let l ← closeArg open_
        match s with
        | [] =>
          let (m, ps) ← scanArgs specs (some (a, [])) ws
          some (l ++ m, ps)
        | '=' :: v =>
          let (m, ps) ← scanArgs specs none ws
          some (l ++ (a.long, [v]) :: m, ps)
        | v =>
          let (m, ps) ← scanArgs specs none ws
          some (l ++ (a.long, [v]) :: m, ps)
    | w =>
      match open_ with
      | some (a, vs) =>
        if a.takes = .many then scanArgs specs (some (a, vs ++ [w])) ws
        else do
          let (m, ps) ← scanArgs specs none ws
          some ((a.long, vs ++ [w]) :: m, ps)
      | none => do
        let (m, ps) ← scanArgs specs none ws
        some (m, w :: ps)

/-- The values of an argument that may be given at most once (`ArgAction::Set`, `SetTrue`). -/
def onceGiven (l : List (Str × List Str)) (name : Str) : Option (Option (List Str)) :=
  match l.filter (fun p => p.1 = name) with
  | [] => some none
  | [p] => some (some p.2)
  | _ => none

/-- A flag. -/
def flagGiven (l : List (Str × List Str)) (name : Str) : Option Bool := (onceGiven l name).map Option.isSome

/-- An argument with one value; the outer `none` is an error. -/
def valueGiven (l : List (Str × List Str)) (name : Str) : Option (Option Str) :=
  (onceGiven l name).map fun o => o.bind List.head?

/-- An argument with any number of values, which may be given repeatedly (`ArgAction::Append`); `none` if it is not given. -/
def valuesGiven (l : List (Str × List Str)) (name : Str) : Option (List Str) :=
  match l.filter (fun p => p.1 = name) with
  | [] => none
  | ps => some (ps.flatMap Prod.snd)

/-- The value read from the text given, or from the default. -/
def valueOr {α : Type} (l : List (Str × List Str)) (name dflt : Str) (read : Str → Option α) : Option α := do
  read ((← valueGiven l name).getD dflt)

/-- An optional value. -/
def valueOpt {α : Type} (l : List (Str × List Str)) (name : Str) (read : Str → Option α) : Option (Option α) := do
  match ← valueGiven l name with
  | none => some none
  | some v => (read v).map some

/-- A value that has to be given. -/
def valueReq {α : Type} (l : List (Str × List Str)) (name : Str) (read : Str → Option α) : Option α := do
  read (← ← valueGiven l name)

/-! ### Values -/

/-- `PathBuf`: the components of a path; `clap` refuses the empty text. -/
def readPath (s : Str) : Option Path :=
  if s = [] then none
  else
    let parts := splitChar '/' s
    let comps := fun (l : List Str) => (l.filter fun t => t ≠ [] ∧ t ≠ str% ".").map fun t => if t = str% ".." then Comp.parent else .normal t
    match parts with
    | [] :: rest => some (.root :: comps rest)
    | ['.'] :: rest => some (.cur :: comps rest)
    | l => some (comps l)

/-- The number written with decimal digits. -/
def digitsNat (s : Str) : Nat := s.foldl (fun n c => 10 * n + (c.toNat - 48)) 0

/-- The exponent after `e`, with an optional sign. -/
def readExp (s : Str) : Option ℤ :=
  let digits := fun (d : Str) => if d ≠ [] ∧ d.all Char.isDigit then some (digitsNat d : ℤ) else none
  match s with
  | '+' :: d => digits d
  | '-' :: d => (digits d).map Neg.neg
  | d => digits d

/-- What follows the number in front of the exponent. -/
def expOf : Str → Option ℤ
  | [] => some 0
  | c :: r => if c = 'e' ∨ c = 'E' then readExp r else none

/-- The digits after a point, and what follows. -/
def fracOf : Str → Str × Str
  | '.' :: r => (r.takeWhile Char.isDigit, r.dropWhile Char.isDigit)
  | r => ([], r)

/-- A decimal number without sign, as in `f64::from_str`: digits with an optional point, at least one digit, an optional exponent. -/
def readDecimal (s : Str) : Option ℚ :=
  let int := s.takeWhile Char.isDigit
  let rest := fracOf (s.dropWhile Char.isDigit)
  if int = [] ∧ rest.1 = [] then none
  else (expOf rest.2).map fun e => (digitsNat (int ++ rest.1) : ℚ) * (10 : ℚ) ^ (e - (rest.1.length : ℤ) : ℤ)

/-- A number without sign, as in `f64::from_str`: correctly rounded. -/
def readMagnitude (s : Str) : Option F64 :=
  if asciiLower s = str% "inf" ∨ asciiLower s = str% "infinity" then some .pinf
  else if asciiLower s = str% "nan" then some .nan
  else (readDecimal s).map F64.rnd

/-- `f64::from_str`: an optional sign and a number. -/
def readF64 (s : Str) : Option F64 :=
  match s with
  | '-' :: r => (readMagnitude r).map F64.neg
  | '+' :: r => readMagnitude r
  | r => readMagnitude r

/-! ### The command line tool -/

/-- `core/src/lib.rs:119-164`, `cli/src/main.rs:106-126` and the global `--verbose` of `:21-22`: the arguments of both `compare` commands. -/
def compareSpecs : List ArgSpec :=
  [{ long := str% "method", short := some 'm', takes := .one }, { long := str% "unit", short := some 'u', takes := .one },
    { long := str% "ignore-errors", takes := .none }, { long := str% "git-pull", takes := .none }, { long := str% "git-force", takes := .none },
    { long := str% "offline", takes := .none }, { long := str% "threshold", takes := .one }, { long := str% "change", takes := .many },
    { long := str% "extrinsic", takes := .one }, { long := str% "pallet", aliases := [str% "file"], takes := .one },
    { long := str% "format", takes := .one }, { long := str% "print-terms", takes := .none }, { long := str% "no-color", takes := .none },
    { long := str% "strip-path-prefix", takes := .one }, { long := str% "verbose", takes := .none }]

/-- `cli/src/main.rs:45-65` `struct CompareFilesCmd`. -/
def filesSpecs : List ArgSpec := compareSpecs ++ [{ long := str% "old", takes := .many }, { long := str% "new", takes := .many }]

/-- `cli/src/main.rs:69-95` `struct CompareCommitsCmd`. -/
def commitsSpecs : List ArgSpec := compareSpecs ++ [{ long := str% "repo", takes := .one }, { long := str% "path-pattern", takes := .one }]

/-- `core/src/lib.rs:121-147` `struct CompareParams`. -/
def paramsGiven (l : List (Str × List Str)) : Option CompareParams := do
  let method ← valueReq l (str% "method") (valueEnum CompareMethod.idents)
  let unit ← valueOr l (str% "unit") (str% "time") (valueEnum Dimension.idents)
  let ignoreErrors ← flagGiven l (str% "ignore-errors")
  let gitPull ← flagGiven l (str% "git-pull")
  let gitForce ← flagGiven l (str% "git-force")
  let offline ← flagGiven l (str% "offline")
  some { method, unit, ignoreErrors, gitPull, gitForce, offline }

/-- `core/src/lib.rs:155-157` `change`. -/
def changeGiven (l : List (Str × List Str)) : Option (Option (List RelativeChange)) :=
  match valuesGiven l (str% "change") with
  | none => some none
  | some vs => (vs.mapM (valueEnum RelativeChange.idents)).map some

/-- `core/src/lib.rs:150-164` `struct FilterParams`. -/
def filterGiven (l : List (Str × List Str)) : Option FilterParams := do
  let threshold ← valueOr l (str% "threshold") (str% "5") readF64
  let change ← changeGiven l
  let extrinsic ← valueOpt l (str% "extrinsic") some
  let pallet ← valueOpt l (str% "pallet") some
  some { threshold, change, extrinsic, pallet }

/-- `cli/src/main.rs:106-126` `struct FormatParams`. -/
def formatGiven (l : List (Str × List Str)) : Option FormatParams := do
  let format ← valueOr l (str% "format") (str% "human") (valueEnum OutputFormat.idents)
  let printTerms ← flagGiven l (str% "print-terms")
  let noColor ← flagGiven l (str% "no-color")
  let stripPathPrefix ← valueOpt l (str% "strip-path-prefix") some
  some { format, printTerms, noColor, stripPathPrefix }

/-- `cli/src/main.rs:24-102`: the commands. -/
inductive Command where
  | compareFiles (params : CompareParams) (filter : FilterParams) (format : FormatParams) (old new : List Path)
  | compareCommits (params : CompareParams) (filter : FilterParams) (format : FormatParams) (old new : Str) (repo : Path) (pattern : Str)
  | parseFiles (files : List Path)

/-- The arguments of `compare files`. -/
def readFilesCmd (args : List Str) : Option (Bool × Command) := do
  let (l, words) ← scanArgs filesSpecs none args
  if words ≠ [] then none
  let params ← paramsGiven l
  let filter ← filterGiven l
  let format ← formatGiven l
  let old ← (← valuesGiven l (str% "old")).mapM readPath
  let new ← (← valuesGiven l (str% "new")).mapM readPath
  some (← flagGiven l (str% "verbose"), .compareFiles params filter format old new)

/-- The arguments of `compare commits`: the first word is the old revision, the second one the new revision, `master` by default. -/
def readCommitsCmd (args : List Str) : Option (Bool × Command) := do
  let (l, words) ← scanArgs commitsSpecs none args
  let params ← paramsGiven l
  let filter ← filterGiven l
  let format ← formatGiven l
  let repo ← valueOr l (str% "repo") (str% ".") readPath
  let pattern ← valueReq l (str% "path-pattern") some
  let verbose ← flagGiven l (str% "verbose")
  match words with
  | [old] => some (verbose, .compareCommits params filter format old (str% "master") repo pattern)
  | [old, new] => some (verbose, .compareCommits params filter format old new repo pattern)
  | _ => none

/-- `cli/src/main.rs:97-102`: the arguments of `parse files`.  The definition gives the argument an index and a long name, which `clap` checks (and
refuses) with a panic if debug assertions are enabled; otherwise the long name has no effect.  `num_args = 0..1000` allows 999 values. -/
def readParseCmd (b : Build) (args : List Str) : Option (Bool × Command) := do
  if b = .debug then none
  let (l, words) ← scanArgs [{ long := str% "verbose", takes := .none }] none args
  if words = [] ∨ 999 < words.length then none
  some (← flagGiven l (str% "verbose"), .parseFiles (← words.mapM readPath))

/-- The arguments of a command that has only sub-commands: whether `--verbose` is given (at most once), the sub-command, and its arguments. -/
def subCommand (names : List Str) : List Str → Option (Bool × Str × List Str)
  | [] => none
  | w :: ws =>
    if w = str% "--verbose" then
      match ws with
      | n :: rest => if n ∈ names then some (true, n, rest) else none
      | [] => none
    else if w ∈ names then some (false, w, ws) else none

/-- The arguments of a sub-command. -/
def readVerb (b : Build) (group verb : Str) (args : List Str) : Option (Bool × Command) :=
  if group = str% "compare" then (if verb = str% "files" then readFilesCmd args else readCommitsCmd args) else readParseCmd b args

/-- `cli/src/main.rs:14-42` and `:178-179`: the arguments of the program (without its name). -/
def readCommandLine (b : Build) (args : List Str) : Option (Bool × Command) := do
  let (v, group, args) ← subCommand [str% "compare", str% "parse"] args
  let (v', verb, args) ← subCommand (if group = str% "compare" then [str% "files", str% "commits"] else [str% "files"]) args
  let (v'', cmd) ← readVerb b group verb args
  some (v || v' || v'', cmd)

/-- `cli/src/main.rs:178-230` `main`: what the command given shows.  The world starts in the state of `s`; the files given on the command line are read
from it as they are. -/
def Command.run {W : World} (b : Build) (ho : HashOrder) (rx : RegexEngine) (env : Env) (penv : PrintEnv) : Command → Act W (Shown ⊕ Str × Str)
  | .compareFiles params filter format old new => fun s =>
    ((cliCompareFiles b ho rx env penv (W.fs s.state) params filter format old new).map .inl, s)
  | .compareCommits params filter format old new repo pattern => do
    let shown ← cliCompareCommits b ho rx env penv repo old new params filter format pattern
    Act.ret (.inl shown)
  | .parseFiles files => fun s =>
    let (first, second) := cliParseFiles env (W.fs s.state) files
    (second.map fun t => .inr (first, t), s)

/-- `cli/src/main.rs:178-230` `main`: `none` if `clap` ends the program. -/
def cliMain {W : World} (b : Build) (ho : HashOrder) (rx : RegexEngine) (env : Env) (penv : PrintEnv) (args : List Str) :
    Act W (Option (Shown ⊕ Str × Str)) :=
  match readCommandLine b args with
  | none => Act.ret none
  | some (_, cmd) => do
    let r ← cmd.run b ho rx env penv
    Act.ret (some r)

/-! ### The web server -/

/-- `web/src/main.rs:33-58` `struct MainCmd`. -/
structure ServerCmd where
  root : Path
  static : Path
  repos : List Str
  endpoint : Str
  port : Nat
  cert : Option Str
  key : Option Str

/-- `web/src/main.rs:33-58`. -/
def serverSpecs : List ArgSpec :=
  [{ long := str% "root", short := some 'r', takes := .one }, { long := str% "static", short := some 's', takes := .one },
    { long := str% "repos", takes := .many }, { long := str% "endpoint", short := some 'e', takes := .one },
    { long := str% "port", short := some 'p', takes := .one }, { long := str% "cert", takes := .one }, { long := str% "key", takes := .one }]

/-- A number for `u16`: an optional sign and decimal digits (`i64::from_str` and then the range). -/
def readPort (s : Str) : Option Nat :=
  let digits := fun (d : Str) => if d ≠ [] ∧ d.all Char.isDigit then some (digitsNat d) else none
  match s with
  | '+' :: d => (digits d).filter (· < 65536)
  | '-' :: d => (digits d).filter (· = 0)
  | d => (digits d).filter (· < 65536)

/-- `web/src/main.rs:92` `CONFIG`: the arguments of the server (without its name). -/
def readServerLine (args : List Str) : Option ServerCmd := do
  let (l, words) ← scanArgs serverSpecs none args
  if words ≠ [] then none
  let root ← valueOr l (str% "root") (str% "root/") readPath
  let static ← valueOr l (str% "static") (str% "web/static") readPath
  let endpoint ← valueOr l (str% "endpoint") (str% "127.0.0.1") some
  let port ← valueOr l (str% "port") (str% "8080") readPort
  let cert ← valueOpt l (str% "cert") some
  let key ← valueOpt l (str% "key") some
  if cert.isSome ≠ key.isSome then none
  some { root, static, repos := (valuesGiven l (str% "repos")).getD [str% "polkadot"], endpoint, port, cert, key }

end Swc
