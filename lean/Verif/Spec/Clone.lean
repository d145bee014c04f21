/-
Independent specification of git, as far as the programs use it: what a clone of a repository is, what a name means in it, and what the commands do to it.
-/
import Verif.Spec.Glob
import Verif.Spec.Branches
import Verif.Spec.Crowd

namespace Swc.Spec

open Swc

/-- What is in a commit: directories, and the texts of the files. -/
structure Snapshot where
  tree : GlobNode
  text : List Str → Except Str Str

/-- Branches, tags, and commits by their hashes. -/
structure Refs where
  heads : Str → Option Snapshot
  tags : Str → Option Snapshot
  commits : Str → Option Snapshot

/-- A clone of a repository, and its origin.  The files are those of the commit `head`; nothing else has been changed in the directory. -/
structure Clone where
  here : Refs
  /-- The branches of the origin as they were when last seen: `refs/remotes/origin/…`. -/
  seen : Str → Option Snapshot
  /-- Whatever else git understands, such as abbreviated hashes. -/
  other : Str → Option Snapshot
  /-- The branch that is checked out; none if a commit is. -/
  branch : Option Str
  head : Snapshot
  /-- What is at the origin at this moment. -/
  origin : Refs
  /-- The origin can be reached. -/
  online : Bool

/-- The name that git uses for the branch of the origin as last seen. -/
def atOrigin (x : Str) : Str := str% "origin/" ++ x

/-- What `origin/…` means besides tags and branches of the clone. -/
def Clone.lastSeen (k : Clone) (x : Str) : Option Snapshot :=
  if str% "origin/" <+: x then k.seen (x.drop 7) else none

/-- What git takes a name for (`gitrevisions(7)`): a hash, a tag, a branch, a branch of the origin, or something else, in this order. -/
def Clone.Denotes (k : Clone) (x : Str) : Option Snapshot :=
  k.here.commits x <|> k.here.tags x <|> k.here.heads x <|> k.lastSeen x <|> k.other x

/-- What git takes a name for that is to be checked out: a branch first. -/
def Clone.Switches (k : Clone) (x : Str) : Option Snapshot := k.here.heads x <|> k.Denotes x

/-- Names that `git fetch` and `git reset` take for revisions; no options, patterns, or full names. -/
structure RefName (x : Str) : Prop where
  start : x ≠ [] ∧ x.head? ≠ some '-' ∧ x.head? ≠ some '+'
  chars : ':' ∉ x ∧ '*' ∉ x ∧ '^' ∉ x
  keyword : x ≠ str% "tag"
  short : ¬ str% "refs/" <+: x ∧ ¬ str% "heads/" <+: x ∧ ¬ str% "tags/" <+: x ∧ ¬ str% "remotes/" <+: x

/-- The commit has a file or directory of this name. -/
def HasPath (c : Snapshot) (x : Str) : Prop := ∃ ns n, LeadsTo c.tree ns n ∧ ns ≠ [] ∧ joinStr (str% "/") ns = x

/-- Replace the value at one place. -/
def setAt {α : Type} (f : Str → Option α) (x : Str) (v : α) : Str → Option α := fun y => if y = x then some v else f y

/-- The branches after one of them, if any, has been moved to a commit. -/
def movedTo (heads : Str → Option Snapshot) (b : Option Str) (c : Snapshot) : Str → Option Snapshot := match b with
  | some b => setAt heads b c
  | none => heads

/-- A branch of this name can be added: git keeps them as files, so none is a directory of another. -/
def RoomFor (heads : Str → Option Snapshot) (x : Str) : Prop := ∀ y, heads y ≠ none → ¬ (y ++ str% "/") <+: x ∧ ¬ (x ++ str% "/") <+: y

/-- What the origin knows a name for: a hash, a tag, or a branch, in this order. -/
def Refs.knows (r : Refs) (x : Str) : Prop := r.commits x ≠ none ∨ r.tags x ≠ none ∨ r.heads x ≠ none

/-- The name is that of a branch, and nothing else, and this is its newest commit. -/
def Refs.OnlyBranch (r : Refs) (x : Str) (c : Snapshot) : Prop := r.commits x = none ∧ r.tags x = none ∧ r.heads x = some c

/-- No commit that was known is forgotten. -/
def KeepsCommits (k k' : Clone) : Prop := ∀ h c, k.here.commits h = some c → k'.here.commits h = some c

/-- Only the commits known, the branches of the origin as last seen, and new tags can differ. -/
structure SameFiles (k k' : Clone) : Prop where
  heads : k'.here.heads = k.here.heads
  branch : k'.branch = k.branch
  head : k'.head = k.head
  commits : KeepsCommits k k'

/-- Nothing differs in the clone. -/
structure AsBefore (k k' : Clone) : Prop where
  here : k'.here = k.here
  seen : k'.seen = k.seen
  other : k'.other = k.other
  branch : k'.branch = k.branch
  head : k'.head = k.head

/-- The commit is checked out, and the current branch, if there is one, now is at this commit. -/
structure ResetTo (k : Clone) (c : Snapshot) (k' : Clone) : Prop where
  head : k'.head = c
  branch : k'.branch = k.branch
  heads : k'.here.heads = movedTo k.here.heads k.branch c
  tags : k'.here.tags = k.here.tags
  commits : k'.here.commits = k.here.commits
  seen : k'.seen = k.seen

/-- Another branch (or, if there is none of this name, a commit) is checked out. -/
structure SwitchedTo (k : Clone) (c : Snapshot) (b : Option Str) (k' : Clone) : Prop where
  head : k'.head = c
  branch : k'.branch = b
  heads : k'.here.heads = movedTo k.here.heads b c
  tags : k'.here.tags = k.here.tags
  commits : k'.here.commits = k.here.commits
  seen : k'.seen = k.seen

/-- What `git fetch origin x` does: what is known of the branch `x` of the origin is brought up to date, if it succeeds; no tags are created. -/
structure DoesFetch (k : Clone) (x : Str) (out : GitOut) (k' : Clone) : Prop where
  same : SameFiles k k'
  tags : k'.here.tags = k.here.tags
  others : ∀ y, y ≠ x → k'.seen y = k.seen y
  works : k.online = true → k.origin.knows x → (∀ c, k.origin.OnlyBranch x c → RoomFor k.seen x) → Success out
  branch : Success out → ∀ c, k.origin.OnlyBranch x c → k'.seen x = some c
  noBranch : (¬ Success out ∨ ¬ ∃ c, k.origin.OnlyBranch x c) → k'.seen x = k.seen x
  commit : Success out → ∀ c, k.origin.commits x = some c → k'.here.commits x = some c
  failed : ¬ Success out → AsBefore k k'

/-- What `git fetch origin x:y` does, for a branch of the origin and a new name: it creates a branch.  Tags can come along. -/
structure DoesFetchInto (k : Clone) (x y : Str) (out : GitOut) (k' : Clone) : Prop where
  works : ∀ c, k.online = true → k.origin.OnlyBranch x c → k.here.heads y = none → RoomFor k.seen x → RoomFor k.here.heads y →
    Success out ∧ k'.here.heads = setAt k.here.heads y c ∧ k'.branch = k.branch ∧ k'.head = k.head ∧ k'.seen = setAt k.seen x c
  newTags : ∀ t, k'.here.tags t = k.here.tags t ∨ (k.here.tags t = none ∧ k'.here.tags t = k.origin.tags t)

/-- What `git reset --hard x` does.  Git refuses if a file has the same name as the revision. -/
structure DoesReset (k : Clone) (x : Str) (out : GitOut) (k' : Clone) : Prop where
  works : ∀ c, k.Denotes x = some c → ¬ HasPath k.head x → Success out ∧ ResetTo k c k'
  unknown : (k.Denotes x = none ∨ HasPath k.head x) → ¬ Success out ∧ AsBefore k k'

/-- What `git checkout x` does: it switches to a branch, or to a commit; if there is no revision of this name, it creates a branch if the origin has one; otherwise it
takes the name for that of a file, which it restores. -/
structure DoesCheckout (k : Clone) (x : Str) (out : GitOut) (k' : Clone) : Prop where
  switch : ∀ c, k.here.heads x = some c → Success out ∧ SwitchedTo k c (some x) k'
  detach : ∀ c, k.here.heads x = none → k.Denotes x = some c → Success out ∧ SwitchedTo k c none k'
  create : ∀ c, k.here.heads x = none → k.Denotes x = none → k.seen x = some c → ¬ HasPath k.head x → RoomFor k.here.heads x →
    Success out ∧ SwitchedTo k c (some x) k'
  noRoom : k.here.heads x = none → k.Denotes x = none → k.seen x ≠ none → ¬ HasPath k.head x → ¬ RoomFor k.here.heads x → ¬ Success out ∧ AsBefore k k'
  restore : k.here.heads x = none → k.Denotes x = none → k.seen x = none → HasPath k.head x → Success out ∧ AsBefore k k'
  unclear : ∀ c, k.here.heads x = none → k.Denotes x = none → k.seen x = some c → HasPath k.head x → ¬ Success out ∧ AsBefore k k'
  unknown : k.here.heads x = none → k.Denotes x = none → k.seen x = none → ¬ HasPath k.head x → ¬ Success out ∧ AsBefore k k'

/-- What `git fetch --all --prune --tags` does: tags that are there are not replaced (if it should, it fails). -/
structure DoesFetchAll (k : Clone) (out : GitOut) (k' : Clone) : Prop where
  same : SameFiles k k'
  oldTags : ∀ t c, k.here.tags t = some c → k'.here.tags t = some c
  newTags : ∀ t c, k.here.tags t = none → k'.here.tags t = some c → k.origin.tags t = some c
  someSeen : ∀ y, k'.seen y = k.seen y ∨ k'.seen y = k.origin.heads y
  works : k.online = true → (∀ t c c', k.here.tags t = some c → k.origin.tags t = some c' → c = c') → Success out
  allTags : Success out → ∀ t c, k.origin.tags t = some c → k'.here.tags t = some c
  allSeen : Success out → k'.seen = k.origin.heads

/-- What `git ls-remote --tags --heads` does: it prints the branches and the tags of the origin (tags that have a name of their own also with `^{}`). -/
structure DoesList (k : Clone) (out : GitOut) (k' : Clone) : Prop where
  untouched : AsBefore k k'
  works : k.online = true → Success out
  prints : ∀ stdout stderr utf8, out = .exited true stdout stderr utf8 → ∃ rs : List Ref, stdout = output rs ∧
    (∀ r ∈ rs, r.WellFormed) ∧
    (∀ x, k.origin.heads x ≠ none ↔ ∃ r ∈ rs, r.tag = false ∧ r.name = x) ∧
    (∀ x, k.origin.tags x ≠ none → ∃ r ∈ rs, r.tag = true ∧ r.name = x) ∧
    (∀ r ∈ rs, r.tag = true → k.origin.tags r.name ≠ none ∨ ∃ x, r.name = x ++ str% "^{}" ∧ k.origin.tags x ≠ none)

/-- A complete hash. -/
def IsHash (x : Str) : Prop := 40 ≤ x.length ∧ ∀ c ∈ x, isHex c.toLower = true

/-- A name that cannot be a notation for a commit other than that of a reference: no operators, and not the output of `git describe`. -/
structure NoNotation (x : Str) : Prop where
  operators : '~' ∉ x ∧ '^' ∉ x ∧ ':' ∉ x ∧ '@' ∉ x
  describe : ¬ str% "-g" <:+: x

/-- In this world git does what it is documented to do; `view` is what the state of the world means to git.  What happens at the origin meanwhile is not restricted. -/
structure RealGit (W : World) (view : W.State → Clone) : Prop where
  hashes : ∀ s h, (view s).here.commits h ≠ none → IsHash h
  colons : ∀ s x, ':' ∈ x → x.head? ≠ some ':' → (view s).Denotes x = none
  fetchInto : ∀ s x y, RefName x → RefName y → DoesFetchInto (view s) x y (W.git s [str% "fetch", str% "origin", x ++ ':' :: y]).1
    (view (W.git s [str% "fetch", str% "origin", x ++ ':' :: y]).2)
  notations : ∀ s x, (view s).other (atOrigin x) ≠ none → ¬ NoNotation (atOrigin x)
  fetch : ∀ s x, RefName x → DoesFetch (view s) x (W.git s [str% "fetch", str% "origin", x]).1 (view (W.git s [str% "fetch", str% "origin", x]).2)
  reset : ∀ s x, x.head? ≠ some '-' → DoesReset (view s) x (W.git s [str% "reset", str% "--hard", x]).1 (view (W.git s [str% "reset", str% "--hard", x]).2)
  checkout : ∀ s x, RefName x → DoesCheckout (view s) x (W.git s [str% "checkout", x]).1 (view (W.git s [str% "checkout", x]).2)
  fetchAll : ∀ s, DoesFetchAll (view s) (W.git s [str% "fetch", str% "--all", str% "--prune", str% "--tags"]).1
    (view (W.git s [str% "fetch", str% "--all", str% "--prune", str% "--tags"]).2)
  list : ∀ s, DoesList (view s) (W.git s [str% "ls-remote", str% "--tags", str% "--heads"]).1 (view (W.git s [str% "ls-remote", str% "--tags", str% "--heads"]).2)

/-! ### What is checked out -/

/-- Git takes `origin/x` for the branch of the origin as last seen, if it takes it for anything: no branch, tag or file in the clone has this name. -/
structure Unshadowed (k : Clone) (x : Str) : Prop where
  tag : k.here.tags (atOrigin x) = none
  head : k.here.heads (atOrigin x) = none
  file : ¬ HasPath k.head (atOrigin x)

/-- Nor does it take it for anything else. -/
structure NotSeen (k : Clone) (x : Str) : Prop where
  plain : NoNotation (atOrigin x)
  seen : k.seen x = none

/-- The commit that the server compares under the name `x`; `pull` tells whether the origin is asked. -/
inductive Obtains (k : Clone) (pull : Bool) (x : Str) : Snapshot → Prop
  /-- The newest commit of a branch of the origin. -/
  | newest {c : Snapshot} : Unshadowed k x → pull = true → k.online = true → k.origin.OnlyBranch x c → RoomFor k.seen x → Obtains k pull x c
  /-- A branch of the origin as last seen. -/
  | last {c : Snapshot} : Unshadowed k x → pull = false → k.seen x = some c → Obtains k pull x c
  /-- A tag of the clone, which is no branch of the origin. -/
  | tag {c : Snapshot} : Unshadowed k x → k.here.tags x = some c → ¬ IsHash x → ¬ HasPath k.head x → NotSeen k x →
      (pull = true → k.online = true ∧ k.origin.tags x ≠ none) → Obtains k pull x c
  /-- A commit of the origin. -/
  | hash {c : Snapshot} : Unshadowed k x → pull = true → k.online = true → k.origin.commits x = some c → ¬ HasPath k.head x → NotSeen k x → Obtains k pull x c
  /-- A branch of the clone that has the name of a branch of the origin. -/
  | shadow {c : Snapshot} : k.here.tags (atOrigin x) = none → k.here.heads (atOrigin x) = some c → ¬ HasPath k.head (atOrigin x) →
      (pull = true → k.online = true ∧ k.origin.knows x ∧ ∀ c, k.origin.OnlyBranch x c → RoomFor k.seen x) → Obtains k pull x c

/-! ### Quiet times -/

/-- At the origin, `B` are branches and `T` are tags, with their commits, and nothing else has their names. -/
structure Undisputed (O : Refs) (B T : Str → Snapshot → Prop) : Prop where
  branches : ∀ x c, B x c → O.OnlyBranch x c ∧ RoomFor O.heads x
  tags : ∀ x c, T x c → O.tags x = some c ∧ O.heads x = none ∧ ¬ IsHash x ∧ NoNotation (atOrigin x)
  free : ∀ x c, B x c ∨ T x c → O.tags (atOrigin x) = none

/-- The clone of this origin, which can be reached, has the tags, and nothing of it stands in the way of the branches and tags. -/
structure WellKept (O : Refs) (B T : Str → Snapshot → Prop) (k : Clone) : Prop where
  origin : k.origin = O
  online : k.online = true
  clear : ∀ x c, B x c ∨ T x c → Unshadowed k x ∧ k.branch ≠ some (atOrigin x)
  room : ∀ x c, B x c → RoomFor k.seen x
  tags : ∀ x c, T x c → k.here.tags x = some c ∧ k.seen x = none ∧ ¬ HasPath k.head x

/-- Nobody pushes, and the origin can always be reached. -/
def NobodyPushes (W : World) (view : W.State → Clone) : Prop := ∀ s args, (view (W.git s args).2).origin = (view s).origin ∧ (view (W.git s args).2).online = (view s).online

/-- No commit has a file or directory that has the name of one of the branches or tags. -/
def NoSuchFiles (W : World) (view : W.State → Clone) (B T : Str → Snapshot → Prop) : Prop :=
  ∀ s z c, (view s).Denotes z = some c → ∀ x d, (B x d ∨ T x d → ¬ HasPath c (atOrigin x)) ∧ (T x d → ¬ HasPath c x)

/-! ### The files of a commit -/

/-- The name of the directory in which git keeps its own files. -/
abbrev gitDir : Str := str% ".git"

/-- In the directory are the files of the commit, and those of git. -/
structure HoldsFiles (dir : GlobNode) (c : Snapshot) : Prop where
  tidy : Tidy dir
  files : ∀ s ns n, s ≠ gitDir → (LeadsTo dir (s :: ns) n ↔ LeadsTo c.tree (s :: ns) n)

/-- The files of the repository, which is at `base`, are on the disk and are those of the commit that is checked out. -/
structure Workspace (W : World) (view : W.State → Clone) (disk : W.State → GlobDisk) (base : Path) : Prop where
  onDisk : OnDisk W disk
  place : ∀ s, ∃ spot, RepoAt (disk s) base spot ∧ HoldsFiles spot.node (view s).head
  texts : ∀ s sn ns n, sn ≠ gitDir → LeadsTo (view s).head.tree (sn :: ns) n → W.fs s (undotted base ++ (sn :: ns).map .normal) = (view s).head.text (sn :: ns)

/-- The names on a path. -/
def plainNames : Path → Option (List Str)
  | [] => some []
  | .normal s :: p => (plainNames p).map (s :: ·)
  | _ :: _ => none

/-- The texts of a commit, by path. -/
def Snapshot.fs (c : Snapshot) : Fs := fun p => match plainNames p with
  | some ns => c.text ns
  | none => .error (str% "no such file")

/-- The functions in the files of a commit that one of the patterns describes; the files are named by their paths. -/
def FunctionsAt (c : Snapshot) (pieces : List Str) (lenient : Bool) (maxFiles : Nat) (fns : List Located) : Prop :=
  ∃ files, files.Pairwise (fun a c => Path.cmp a c = .lt) ∧ (∀ f, f ∈ files ↔ Wanted [] c.tree pieces f) ∧ files.length ≤ maxFiles ∧
    FunctionsBy c.fs (fun p name => name = p.display) lenient files fns

/-- Patterns that are ordinary, have `**` at most once, do not describe a file together, and describe nothing in the directory of git. -/
structure GoodPieces (pieces : List Str) : Prop where
  each : ∀ p ∈ pieces, ∃ comps, Ordinary p comps ∧ comps.count anyDirs ≤ 1 ∧ ∀ ns, DescribesPath comps ns → ns.head? ≠ some gitDir
  apart : NoOverlap pieces

/-- The functions in the weight files of a commit of polkadot-sdk. -/
def SdkFunctionsAt (c : Snapshot) (fns : List Located) : Prop :=
  ∃ files, files.Pairwise (fun a c => Path.cmp a c = .lt) ∧
    (∀ f, f ∈ files ↔ ∃ ns n, LeadsTo c.tree ns n ∧ WeightFile ns ∧ ns.getLast? ≠ some (str% "mod.rs") ∧ f = ns.map .normal) ∧
    files.length ≤ 6000 ∧ FunctionsBy c.fs (fun p name => name = p.display) true files fns

end Swc.Spec
