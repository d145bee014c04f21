/-
Independent specification of reading the files given on the command line, of the git commands a program can issue, and of moving a repository
to another place.
-/
import Verif.Model.Web
import Verif.Spec.Failure

namespace Swc.Spec

open Swc

/-- The calls in the file `p`, which is named by its last component. -/
def ReadFile (env : Env) (fs : Fs) (p : Path) (exts : List ChromaticExtrinsic) : Prop :=
  ∃ dir name, p = dir ++ [.normal name] ∧ UnderstoodFile env fs p name exts

/-- The file `p` cannot be read, or not be understood; `m` says so.  If it can be read, it has a name. -/
def Unreadable (env : Env) (fs : Fs) (p : Path) (m : Str) : Prop :=
  NotParsed env fs p m ∧ ∀ content, fs p = .ok content → ∃ dir name, p = dir ++ [.normal name]

/-- The calls in the files, in order; files that cannot be read or understood count as empty if errors are ignored. -/
def ReadFiles (env : Env) (fs : Fs) (ignoreErrors : Bool) (files : List Path) (exts : List ChromaticExtrinsic) : Prop :=
  ∃ parts, List.Forall₂ (fun p x => ReadFile env fs p x ∨ (ignoreErrors = true ∧ x = [] ∧ ∃ m, Unreadable env fs p m)) files parts
    ∧ exts = parts.flatten

/-- `m` is about the first file that cannot be read or understood. -/
def FirstUnreadable (env : Env) (fs : Fs) (files : List Path) (m : Str) : Prop :=
  ∃ pre p post, files = pre ++ p :: post ∧ (∀ q ∈ pre, ∃ x, ReadFile env fs q x) ∧ Unreadable env fs p m

/-- Every git command that the program can issue, whatever the world answers, is one of `Q`. -/
def OnlyGit {α : Type} (Q : List Str → Prop) : Prog α → Prop
  | .done _ => True
  | .git args k => Q args ∧ ∀ o, OnlyGit Q (k o)
  | .glob _ k => ∀ o, OnlyGit Q (k o)
  | .read _ k => ∀ o, OnlyGit Q (k o)

/-- The git commands the program issues in the world `W`. -/
def gitCommands {α : Type} (W : World) : Prog α → W.State → List (List Str)
  | .done _, _ => []
  | .git args k, s => args :: gitCommands W (k (W.git s args).1) (W.git s args).2
  | .glob p k, s => gitCommands W (k (W.glob s p)) s
  | .read f k, s => gitCommands W (k (W.fs s f)) s

/-- The git commands allowed for a comparison of `old` and `new`: fetching one of them (if at all), and resetting to one of them, first as a branch
of the remote. -/
def CompareGit (pull : Prop) (old new : Str) (args : List Str) : Prop :=
  ∃ rev, (rev = old ∨ rev = new) ∧
    ((pull ∧ args = [str% "fetch", str% "origin", rev]) ∨ args = [str% "reset", str% "--hard", str% "origin/" ++ rev]
      ∨ args = [str% "reset", str% "--hard", rev])

/-- The git commands allowed for listing branches. -/
def BranchGit (fetch : Prop) (args : List Str) : Prop :=
  (fetch ∧ args = [str% "fetch", str% "--all", str% "--prune", str% "--tags"]) ∨ args = [str% "ls-remote", str% "--tags", str% "--heads"]

/-- Before listing branches everything is fetched, if asked for. -/
def FetchedAll (W : World) (fetch : Bool) (s s' : W.State) : Prop :=
  (fetch = false ∧ s' = s) ∨ (fetch = true ∧ ∃ L, Succeeds W s [str% "fetch", str% "--all", str% "--prune", str% "--tags"] L s')

/-- Git does not do what was asked: `m` is the reason, and `utf8` whether it is readable. -/
def Refuses (W : World) (s : W.State) (args : List Str) (m : Str) (started utf8 : Bool) (s' : W.State) : Prop :=
  (started = false ∧ utf8 = true ∧ W.git s args = (.spawnFailed m, s')) ∨ (started = true ∧ ∃ stdout, W.git s args = (.exited false stdout m utf8, s'))

/-- `l'` is the result of the same glob pattern below `repo'` as `l` below `repo`: the same error, or the same relative paths, none empty. -/
def MovedGlob (repo repo' : Path) (l l' : Except Str (List (Except Str Path))) : Prop :=
  (∃ e, l = .error e ∧ l' = .error e) ∨
    ∃ rels : List (Except Str Path), l = .ok (rels.map fun x => x.map (repo ++ ·)) ∧ l' = .ok (rels.map fun x => x.map (repo' ++ ·)) ∧ Except.ok [] ∉ rels

/-- The world `W` with other files. -/
def withFiles (W : World) (glob' : W.State → Str → Except Str (List (Except Str Path))) (fs' : W.State → Fs) : World := ⟨W.State, W.git, glob', fs'⟩

/-- The repository is at `repo` in the world `W` and at `repo'` in the world with the functions `glob'` and `fs'`, with the same contents and
the same behaviour of git. -/
structure MovedRepo (W : World) (repo repo' : Path) (glob' : W.State → Str → Except Str (List (Except Str Path))) (fs' : W.State → Fs) : Prop where
  globs : ∀ s p, MovedGlob repo repo' (W.glob s (repo.display ++ str% "/" ++ p)) (glob' s (repo'.display ++ str% "/" ++ p))
  reads : ∀ s rel, fs' s (repo' ++ rel) = W.fs s (repo ++ rel)

/-- The comparison of two revisions, begun in the state `st`, reports `diff` and leaves the state `fi`. -/
def Reports (W : World) (b : Build) (ho : HashOrder) (rx : RegexEngine) (env : Env) (repo : Path) (old new : Str) (params : CompareParams)
    (filter : FilterParams) (pattern : Str) (maxFiles : Nat) (st : W.State) (diff : List ExtrinsicDiff) (fi : W.State) : Prop :=
  ∃ log, compareCommits (W := W) b ho rx env repo old new params filter pattern maxFiles ⟨st, []⟩ = (.ok diff, ⟨fi, log⟩)

end Swc.Spec
