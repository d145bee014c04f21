/-
The same functions as in `Model/Git.lean`, as sequences of single interactions with the world: one git command, one glob or one file read at a
time.  This is needed to interleave them with other requests of the web server.  `Props/Web.lean` proves that running such a program
without interruption is the same as the functions of `Model/Git.lean`.
-/
import Verif.Model.Git
import Verif.Model.Branches

namespace Swc

/-- A program that interacts with the world. -/
inductive Prog (α : Type) where
  | done (r : Res α)
  | git (args : List Str) (k : GitOut → Prog α)
  | glob (pattern : Str) (k : Except Str (List (Except Str Path)) → Prog α)
  | read (file : Path) (k : Except Str Str → Prog α)

namespace Prog

variable {α β : Type}

/-- One after the other; anything but `ok` ends the program. -/
def andThen : Prog α → (α → Prog β) → Prog β
  | done (.ok a), f => f a
  | done (.err m), _ => done (.err m)
  | done .panic, _ => done .panic
  | done .diverge, _ => done .diverge
  | git args k, f => git args fun o => (k o).andThen f
  | glob pattern k, f => glob pattern fun o => (k o).andThen f
  | read file k, f => read file fun o => (k o).andThen f

/-- `.map_err(f)` -/
def mapErr (f : Str → Str) : Prog α → Prog α
  | done r => done (r.mapErr f)
  | git args k => git args fun o => (k o).mapErr f
  | glob pattern k => glob pattern fun o => (k o).mapErr f
  | read file k => read file fun o => (k o).mapErr f

instance : Monad Prog where
  pure a := done (.ok a)
  bind := andThen

/-- One interaction; `none` if the program has ended. -/
def step (W : World) : Prog α → W.State → Option (Prog α × W.State)
  | done _, _ => none
  | git args k, s => some (k (W.git s args).1, (W.git s args).2)
  | glob pattern k, s => some (k (W.glob s pattern), s)
  | read file k, s => some (k (W.fs s file), s)

/-- Run to the end without interruption. -/
def run (W : World) : Prog α → W.State → Res α × W.State
  | done r, s => (r, s)
  | git args k, s => run W (k (W.git s args).1) (W.git s args).2
  | glob pattern k, s => run W (k (W.glob s pattern)) s
  | read file k, s => run W (k (W.fs s file)) s

end Prog

/-- One git command. -/
def gitP (args : List Str) : Prog GitOut := .git args fun o => .done (.ok o)

/-- `core/src/lib.rs:246-262` `git_pull`. -/
def gitPullP (refname : Str) : Prog Unit := do
  let out ← gitP [str% "fetch", str% "origin", refname]
  .done (expectSuccess (str% "Failed to fetch branch") out)

/-- `core/src/lib.rs:264-302` `git_reset`. -/
def gitResetP (refname : Str) (pull : Bool) : Prog Unit := do
  if pull then gitPullP refname else pure ()
  let out ← gitP [str% "reset", str% "--hard", str% "origin/" ++ refname]
  match out with
  | .exited true _ _ _ => pure ()
  | _ => do
    let out ← gitP [str% "reset", str% "--hard", refname]
    .done (expectSuccess (str% "Failed to reset branch") out)

/-- `core/src/lib.rs:212-244` `git_checkout`. -/
def gitCheckoutP (refname : Str) (shouldPull force : Bool) : Prog Unit := do
  if force then gitResetP refname shouldPull
  else do
    if shouldPull then gitPullP refname else pure ()
    let out ← gitP [str% "checkout", refname]
    .done (expectSuccess (str% "Failed to checkout branch") out)

/-- One glob.  (The iterator of the glob crate reads directories lazily; it is consumed at once by `collect`.) -/
def globP (pattern : Str) : Prog (List Path) :=
  .glob pattern fun
    | .error e => .done (.err (str% "Invalid path pattern: " ++ e))
    | .ok l => .done (collectPaths l)

/-- The loop of `core/src/lib.rs:312-326`. -/
def listLoopP (base : Path) (maxFiles : Nat) : List Str → List Path → Prog (List Path)
  | [], paths => pure paths
  | r :: rs, paths => do
    let files ← globP (base.display ++ str% "/" ++ r)
    let paths := paths ++ files.filter fun f => !f.endsWithModRs
    if paths.length > maxFiles then
      .done (.err (str% "Found too many files. Found: " ++ natToStr paths.length ++ str% ", Max: " ++ natToStr maxFiles))
    else listLoopP base maxFiles rs paths

/-- `core/src/lib.rs:304-330` `list_files`. -/
def listFilesP (base : Path) (pattern : Str) (maxFiles : Nat) : Prog (List Path) := do
  let paths ← listLoopP base maxFiles (splitChar ',' pattern) []
  pure (dedup (stableSort pathLess paths))

/-- `core/src/parse/pallet.rs:61-65` `parse_file_in_repo`, with a single read. -/
def parseFileP (env : Env) (repo file : Path) : Prog (List ChromaticExtrinsic) :=
  .read file fun c => .done (parseFileInRepo env (fun _ => c) repo file)

/-- `core/src/parse/pallet.rs:73-79` `parse_files_in_repo`. -/
def parseAllP (env : Env) (repo : Path) : List Path → Prog (List ChromaticExtrinsic)
  | [] => pure []
  | p :: l => do
    let a ← parseFileP env repo p
    let r ← parseAllP env repo l
    pure (a ++ r)

/-- `core/src/parse/pallet.rs:89-97` `try_parse_files_in_repo`. -/
def tryParseAllP (env : Env) (repo : Path) : List Path → Prog (List ChromaticExtrinsic)
  | [] => pure []
  | p :: l => do
    let a ← Prog.read p fun c => .done (match parseFileInRepo env (fun _ => c) repo p with
      | .err _ => Res.ok []
      | r => r)
    let r ← tryParseAllP env repo l
    pure (a ++ r)

/-- `core/src/lib.rs:190-195,203-207`. -/
def parseListedP (env : Env) (repo : Path) (ignoreErrors : Bool) (paths : List Path) : Prog (List ChromaticExtrinsic) :=
  if ignoreErrors then tryParseAllP env repo paths else parseAllP env repo paths

/-- `core/src/lib.rs:172-210` `compare_commits`. -/
def compareCommitsP (b : Build) (ho : HashOrder) (rx : RegexEngine) (env : Env) (repo : Path) (old new : Str) (params : CompareParams)
    (filter : FilterParams) (pattern : Str) (maxFiles : Nat) : Prog (List ExtrinsicDiff) :=
  if hasDotDot pattern then .done (.err (str% "Path pattern cannot contain '..'"))
  else do
    (gitCheckoutP old params.shouldPull params.gitForce).mapErr (debugStr env.cc.plain)
    let paths ← listFilesP repo pattern maxFiles
    let olds ← parseListedP env repo params.ignoreErrors paths
    (gitCheckoutP new params.shouldPull params.gitForce).mapErr (debugStr env.cc.plain)
    let paths ← listFilesP repo pattern maxFiles
    let news ← parseListedP env repo params.ignoreErrors paths
    .done (compareFiles b ho rx olds news params filter)

end Swc
