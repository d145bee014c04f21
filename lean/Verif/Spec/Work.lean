/-
Independent specification of the work that a comparison takes, and of the results that the server keeps.
-/
import Verif.Model.Web
import Verif.Spec.Git

namespace Swc.Spec

open Swc

/-- What a program does to the world: a git command, a walk through directories, or reading a file. -/
inductive Deed where
  | git (args : List Str)
  | glob (pattern : Str)
  | read (file : Path)
  deriving DecidableEq

/-- The program can do this and end like this, for some answers of the world. -/
inductive Does {α : Type} : Prog α → List Deed → Res α → Prop
  | done {r} : Does (.done r) [] r
  | git {args k l r} (o : GitOut) (h : Does (k o) l r) : Does (.git args k) (.git args :: l) r
  | glob {p k l r} (o : Except Str (List (Except Str Path))) (h : Does (k o) l r) : Does (.glob p k) (.glob p :: l) r
  | read {f k l r} (o : Except Str Str) (h : Does (k o) l r) : Does (.read f k) (.read f :: l) r

/-- The git commands for one revision: fetching if asked for; then a reset to the branch of the remote, and a second one to the revision itself if the first one
fails; or a checkout. -/
def revisionCommands (rev : Str) (pull force : Bool) : List Deed :=
  (if pull then [.git [str% "fetch", str% "origin", rev]] else []) ++
    (if force then [.git [str% "reset", str% "--hard", str% "origin/" ++ rev], .git [str% "reset", str% "--hard", rev]] else [.git [str% "checkout", rev]])

/-- The work for one revision, complete or not: git commands, then one walk for each piece of the pattern, then the files one by one, none of them twice. -/
def RevisionWork (repo : Path) (rev : Str) (pull force : Bool) (pattern : Str) (maxFiles : Nat) (l : List Deed) : Prop :=
  ∃ (G Q : List Deed) (files : List Path) (ps : List Str), l = G ++ Q ++ files.map .read ∧ G <+: revisionCommands rev pull force ∧ Pieces pattern ps ∧
    Q <+: ps.map (fun p => .glob (repo.display ++ str% "/" ++ p)) ∧ files.Nodup ∧ files.length ≤ maxFiles

/-- Kinds of work. -/
def Deed.isGit : Deed → Bool | .git _ => true | _ => false
def Deed.isGlob : Deed → Bool | .glob _ => true | _ => false
def Deed.isRead : Deed → Bool | .read _ => true | _ => false

/-- The number of git commands, walks and files. -/
def gits (l : List Deed) : Nat := l.countP Deed.isGit
def walks (l : List Deed) : Nat := l.countP Deed.isGlob
def fileReads (l : List Deed) : Nat := l.countP Deed.isRead

/-- From `c` to `c'`, with `n` steps of request number `i`, and any steps of other requests, arrivals and passing time in between. -/
inductive OwnSteps (W : World) (srv : Server) (i : Nat) : Config W.State → Nat → Config W.State → Prop
  | here {c} : OwnSteps W srv i c 0 c
  | own {c c' c'' n} (h : OwnSteps W srv i c n c') (hs : ThreadStep W srv i c' c'') : OwnSteps W srv i c (n + 1) c''
  | other {c c' c'' n} (h : OwnSteps W srv i c n c') (hs : Step W srv c' c'') (hn : ¬ ThreadStep W srv i c' c'') : OwnSteps W srv i c n c''

/-- The steps that a request can take at most: two for each shard and one to leave the iteration; for a comparison also eight more to get and release locks and
the result, three git commands for each of two revisions, one walk for each piece of the pattern and revision, and 6000 files for each revision. -/
def mostSteps (srv : Server) : Request → Nat
  | .compare a => (2 * srv.shards + 1) + 7 + (2 * 3 + 2 * (a.pathPattern.count ',' + 1) + 2 * 6000)
  | .branches _ _ => 4
  | .list => 2 * srv.shards + 1

/-- The last comparison of `a` that has been computed was successful, at time `t` with result `v`. -/
def LastResult {σ : Type} (log : List (Entry σ)) (a : CompareArgs) (t : Nat) (v : List ExtrinsicDiff) : Prop :=
  ∃ l1 l2 id ho st fi, log = l1 ++ .computed id a ho st fi (.ok v) t :: l2 ∧ ∀ id ho st fi r t, Entry.computed id a ho st fi r t ∉ l2

/-- A request is computing the comparison `a` anew: between the lookup in the cache and the end. -/
def Recomputing {σ : Type} (a : CompareArgs) : Pc σ → Prop
  | .wantShard b => b = a
  | .running b _ _ _ => b = a
  | .store b _ _ _ _ => b = a
  | _ => False

end Swc.Spec
