/-
Model of `compare_commits`, the git commands and `list_files` (`core/src/lib.rs:172-330`).

The outside world is a parameter: running git changes an arbitrary state in an arbitrary way and gives an arbitrary answer; globbing and
reading files look at that state.  The working directory of every git command is the repository.  Everything that is done is recorded in a log.
-/
import Verif.Model.ParsePallet
import Verif.Model.Sort

namespace Swc

/-- Outcome of `Command::output()`: git could not be started, or it ended with a status and its outputs.  The outputs are given after
`String::from_utf8_lossy`; `utf8` tells whether the error output was valid UTF-8 before. -/
inductive GitOut where
  | spawnFailed (e : Str)
  | exited (success : Bool) (stdout stderr : Str) (utf8 : Bool)
  deriving DecidableEq

/-- The outside world. -/
structure World where
  State : Type
  git : State → List Str → GitOut × State
  /-- `glob::glob(pattern)`: an invalid pattern, or the sequence of matches, each of which may be an I/O error. -/
  glob : State → Str → Except Str (List (Except Str Path))
  fs : State → Fs

/-- What is recorded. -/
inductive Event where
  | git (args : List Str) (out : GitOut)
  | glob (pattern : Str)
  | parse (files : List Path)
  deriving DecidableEq

/-- State of a run. -/
structure Run (W : World) where
  state : W.State
  log : List Event

/-- A computation acting on the world. -/
def Act (W : World) (α : Type) : Type := Run W → Res α × Run W

namespace Act

variable {W : World} {α β : Type}

/-- Do nothing. -/
def ret (a : α) : Act W α := fun s => (.ok a, s)
/-- Return an outcome. -/
def lift (r : Res α) : Act W α := fun s => (r, s)
/-- One after the other; anything but `ok` ends the run. -/
def andThen (x : Act W α) (f : α → Act W β) : Act W β := fun s =>
  match x s with
  | (.ok a, s') => f a s'
  | (.err m, s') => (.err m, s')
  | (.panic, s') => (.panic, s')
  | (.diverge, s') => (.diverge, s')

/-- `.map_err(f)` -/
def mapErr (f : Str → Str) (x : Act W α) : Act W α := fun s => ((x s).1.mapErr f, (x s).2)

instance : Monad (Act W) where
  pure := ret
  bind := andThen

end Act

variable {W : World}

/-- `Command::new("git").args(args).current_dir(path).output()` -/
def runGit (args : List Str) : Act W GitOut := fun s =>
  let r := W.git s.state args
  (.ok r.1, ⟨r.2, s.log ++ [.git args r.1]⟩)

/-- `.map_err(…)?` and `if !output.status.success() { return Err(…) }` -/
def expectSuccess (what : Str) : GitOut → Res Unit
  | .spawnFailed e => .err (what ++ str% ": " ++ e)
  | .exited false _ stderr _ => .err (what ++ str% ": " ++ stderr)
  | .exited true _ _ _ => .ok ()

/-- `core/src/lib.rs:246-262` `git_pull`. -/
def gitPull (refname : Str) : Act W Unit := do
  let out ← runGit [str% "fetch", str% "origin", refname]
  Act.lift (expectSuccess (str% "Failed to fetch branch") out)

/-- `core/src/lib.rs:264-302` `git_reset`. -/
def gitReset (refname : Str) (pull : Bool) : Act W Unit := do
  if pull then gitPull refname else pure ()
  let out ← runGit [str% "reset", str% "--hard", str% "origin/" ++ refname]
  match out with
  | .exited true _ _ _ => pure ()
  | _ => do
    let out ← runGit [str% "reset", str% "--hard", refname]
    Act.lift (expectSuccess (str% "Failed to reset branch") out)

/-- `core/src/lib.rs:212-244` `git_checkout`. -/
def gitCheckout (refname : Str) (shouldPull force : Bool) : Act W Unit := do
  if force then gitReset refname shouldPull
  else do
    if shouldPull then gitPull refname else pure ()
    let out ← runGit [str% "checkout", refname]
    Act.lift (expectSuccess (str% "Failed to checkout branch") out)

/-- `s.split(c)`. -/
def splitChar (c : Char) : Str → List Str
  | [] => [[]]
  | x :: s =>
    if x = c then [] :: splitChar c s
    else match splitChar c s with
      | h :: t => (x :: h) :: t
      | [] => [[x]]

/-- `collect::<Result<Vec<_>, _>>()` -/
def collectPaths : List (Except Str Path) → Res (List Path)
  | [] => .ok []
  | .error e :: _ => .err (str% "Path pattern error: " ++ e)
  | .ok p :: l => do .ok (p :: (← collectPaths l))

/-- `glob::glob(&regex).map_err(…)?` and the collection of the matches. -/
def runGlob (pattern : Str) : Act W (List Path) := fun s =>
  let r := match W.glob s.state pattern with
    | .error e => Res.err (str% "Invalid path pattern: " ++ e)
    | .ok l => collectPaths l
  (r, ⟨s.state, s.log ++ [.glob pattern]⟩)

/-- The loop of `core/src/lib.rs:312-326`. -/
def listLoop (base : Path) (maxFiles : Nat) : List Str → List Path → Act W (List Path)
  | [], paths => pure paths
  | r :: rs, paths => do
    let files ← runGlob (base.display ++ str% "/" ++ r)
    let paths := paths ++ files.filter fun f => !f.endsWithModRs
    if paths.length > maxFiles then
      Act.lift (.err (str% "Found too many files. Found: " ++ natToStr paths.length ++ str% ", Max: " ++ natToStr maxFiles))
    else listLoop base maxFiles rs paths

/-- `Vec::dedup`: drop every element that equals its predecessor. -/
def dedup {α : Type} [DecidableEq α] : List α → List α
  | [] => []
  | [x] => [x]
  | x :: y :: l => if x = y then dedup (y :: l) else x :: dedup (y :: l)

/-- `a < b` on paths. -/
def pathLess (a c : Path) : Bool := Path.cmp a c == .lt

/-- `core/src/lib.rs:304-330` `list_files`. -/
def listFiles (base : Path) (pattern : Str) (maxFiles : Nat) : Act W (List Path) := do
  let paths ← listLoop base maxFiles (splitChar ',' pattern) []
  pure (dedup (stableSort pathLess paths))

/-- `s.contains("..")` -/
def hasDotDot : Str → Bool
  | '.' :: '.' :: _ => true
  | _ :: s => hasDotDot s
  | [] => false

/-- `core/src/lib.rs:190-195,203-207`: parse the listed files. -/
def parseListed (env : Env) (repo : Path) (ignoreErrors : Bool) (paths : List Path) : Act W (List ChromaticExtrinsic) := fun s =>
  let r := if ignoreErrors then tryParseFilesInRepo env (W.fs s.state) repo paths else parseFilesInRepo env (W.fs s.state) repo paths
  (r, ⟨s.state, s.log ++ [.parse paths]⟩)

/-- `core/src/lib.rs:172-210` `compare_commits`. -/
def compareCommits (b : Build) (ho : HashOrder) (rx : RegexEngine) (env : Env) (repo : Path) (old new : Str) (params : CompareParams)
    (filter : FilterParams) (pattern : Str) (maxFiles : Nat) : Act W (List ExtrinsicDiff) :=
  if hasDotDot pattern then Act.lift (.err (str% "Path pattern cannot contain '..'"))
  else do
    (gitCheckout old params.shouldPull params.gitForce).mapErr (debugStr env.cc.plain)
    let paths ← listFiles repo pattern maxFiles
    let olds ← parseListed env repo params.ignoreErrors paths
    (gitCheckout new params.shouldPull params.gitForce).mapErr (debugStr env.cc.plain)
    let paths ← listFiles repo pattern maxFiles
    let news ← parseListed env repo params.ignoreErrors paths
    Act.lift (compareFiles b ho rx olds news params filter)

end Swc
