/-
Model of the web server (`web/src/main.rs`): its request handlers as threads that interleave arbitrarily, the shard locks of the `DashMap` of
repositories, the mutex of the result cache, and the cache itself.

* Every request runs on its own thread.  (In the code at most four run at a time, one per worker: `Model/Workers`; that only excludes some
  interleavings: `C113_refines`.)
* The world consists of one independent state per repository name.  Everything the world answers is determined by that state, which may contain
  arbitrary sequences of future answers of remote servers.
* `cached` 0.53 with `time = 600, result = true, sync_writes = true, with_cached_flag = true`: the function body runs under one global mutex;
  a hit is an entry for equal arguments whose age in whole seconds is below 600; only `Ok` is stored, with the time of storing; a panic poisons
  the mutex, and locking a poisoned mutex panics (`.lock().unwrap()`).
* `DashMap`: an array of shards, each behind a reader-writer lock; a key belongs to one shard.  `get` holds the shard shared, `get_mut`
  exclusively, iterating holds the current shard shared and takes the next one before it releases the current one.  The map is filled before
  the server starts and does not change afterwards.
-/
import Verif.Model.Prog

namespace Swc

/-- `web/src/main.rs:60-73` `struct CompareArgs`. -/
structure CompareArgs where
  old : Str
  new : Str
  repo : Str
  pathPattern : Str
  extrinsic : Option Str
  pallet : Option Str
  ignoreErrors : Bool
  threshold : Nat
  unit : Dimension
  gitPull : Option Bool
  method : CompareMethod
  deriving DecidableEq

/-- `web/src/main.rs:397-407`: the parameters; `git_pull` defaults to true. -/
def webParams (a : CompareArgs) : CompareParams :=
  { method := a.method, unit := a.unit, ignoreErrors := a.ignoreErrors, gitPull := a.gitPull.getD true, offline := false, gitForce := true }

/-- `web/src/main.rs:408-413`. -/
def webFilter (a : CompareArgs) : FilterParams :=
  { threshold := F64.ofNat a.threshold, change := none, pallet := a.pallet, extrinsic := a.extrinsic }

/-- The configuration of the server. -/
structure Server where
  build : Build
  rx : RegexEngine
  env : Env
  /-- Path of each repository. -/
  repos : Str → Option Path
  /-- Number of shards of the map and the shard of each key. -/
  shards : Nat
  shardOf : Str → Nat
  shardOf_lt : ∀ r, shardOf r < shards
  /-- Whether a waiting writer keeps new readers out. -/
  writerPref : Bool

/-- `web/src/main.rs:390-420`: the body of `do_compare_cached`, once the shard of the repository is locked. -/
def doCompare (srv : Server) (ho : HashOrder) (a : CompareArgs) : Prog (List ExtrinsicDiff) :=
  match srv.repos a.repo with
  | none => .done (.err (str% "Value '" ++ a.repo ++ str% "' is invalid for argument 'repo'."))
  | some path => do
    let diff ← compareCommitsP srv.build ho srv.rx srv.env path (trim a.old) (trim a.new) (webParams a) (webFilter a) (trim a.pathPattern) 6000
    pure (sortChanges (filterChanges diff (webFilter a)))

/-- The first git command of `branches`, `web/src/main.rs:225-247`: `String::from_utf8(output.stderr).unwrap()` panics on invalid UTF-8. -/
def expectFetched : GitOut → Res Unit
  | .spawnFailed e => .err (str% "Failed to fetch branches: '" ++ e ++ str% "'")
  | .exited false _ stderr utf8 => if utf8 then .err (str% "Failed to fetch branches: '" ++ stderr ++ str% "'") else .panic
  | .exited true _ _ _ => .ok ()

/-- The second git command of `branches`, `web/src/main.rs:251-264`; the error of starting git is passed on unchanged. -/
def expectListed : GitOut → Res Str
  | .spawnFailed e => .err e
  | .exited false _ stderr utf8 => if utf8 then .err (str% "Failed to list branches: " ++ stderr) else .panic
  | .exited true stdout _ _ => .ok stdout

/-- `web/src/main.rs:221-248`: fetch if asked to. -/
def fetchP (fetch : Bool) : Prog Unit :=
  if fetch then do
    let out ← gitP [str% "fetch", str% "--all", str% "--prune", str% "--tags"]
    .done (expectFetched out)
  else pure ()

/-- `web/src/main.rs:213-287` `branches`, once the shard of the repository is locked.  `fetch` is the query parameter, `false` by default. -/
def branchesP (srv : Server) (repo : Str) (fetch : Bool) : Prog (List (Str × Str)) :=
  match srv.repos repo with
  | none => .done (.err (str% "Unknown repo '" ++ repo ++ str% "'"))
  | some _ => do
    fetchP fetch
    let out ← gitP [str% "ls-remote", str% "--tags", str% "--heads"]
    let stdout ← Prog.done (expectListed out)
    .done (parseBranches stdout)

/-- The requests: `/compare` (`args` after decoding), `/branches`, and the handlers that only iterate over the repositories (`/`,
`/compare-commit`, `/compare-mr`; `/repos` would too, but is not registered, `web/src/main.rs:147-159`).  Requests that touch no shared state (`/version`, invalid queries) are left out. -/
inductive Request where
  | compare (a : CompareArgs)
  | branches (repo : Str) (fetch : Bool)
  | list
  deriving DecidableEq

/-- Where a request is.  `σ` is the state of a repository. -/
inductive Pc (σ : Type) where
  /-- `REPOS.iter()`: holds shard `i - 1` shared (if `i > 0`), wants shard `i`. -/
  | scan (next : Option CompareArgs) (i : Nat)
  /-- `REPOS.iter()`: holds the shards `i - 1` (if `i > 0`) and `i` shared. -/
  | scanBoth (next : Option CompareArgs) (i : Nat)
  /-- `REPOS.get(&args.repo)` of `compare`: wants the shard. -/
  | lookup (a : CompareArgs)
  /-- Holds the shard shared. -/
  | looking (a : CompareArgs)
  /-- `do_compare_cached`: wants the mutex of the cache. -/
  | wantMutex (a : CompareArgs)
  /-- Holds the mutex. -/
  | check (a : CompareArgs)
  /-- `REPOS.get_mut(&args.repo)`: holds the mutex and wants the shard exclusively. -/
  | wantShard (a : CompareArgs)
  /-- Holds the mutex and the shard exclusively; `p` remains to be done.  `ho` and `start` record how it began. -/
  | running (a : CompareArgs) (ho : HashOrder) (start : σ) (p : Prog (List ExtrinsicDiff))
  /-- The body has ended with `r`, the shard is released, the mutex is still held. -/
  | store (a : CompareArgs) (ho : HashOrder) (start final : σ) (r : Res (List ExtrinsicDiff))
  /-- `REPOS.get(&args.repo)` of `branches`: wants the shard. -/
  | branchWant (repo : Str) (fetch : Bool)
  /-- Holds the shard shared. -/
  | branching (repo : Str) (p : Prog (List (Str × Str)))
  /-- Answered or died. -/
  | finished

/-- The lock of a shard: number of shared holders, exclusive holder, waiting writers. -/
structure Lock where
  readers : Nat
  writer : Bool
  waiting : Nat

/-- Recorded history.  Times are in nanoseconds. -/
inductive Entry (σ : Type) where
  /-- Request number `id` ran the body of `do_compare_cached`. -/
  | computed (id : Nat) (a : CompareArgs) (ho : HashOrder) (start final : σ) (r : Res (List ExtrinsicDiff)) (time : Nat)
  /-- Request number `id` was answered, with the flag `was_cached`. -/
  | answered (id : Nat) (a : CompareArgs) (r : Except Str (List ExtrinsicDiff)) (cached : Bool) (time : Nat)
  /-- Request number `id` panicked. -/
  | died (id : Nat)
  /-- A branch listing was answered. -/
  | listed (id : Nat) (repo : Str) (r : Except Str (List (Str × Str)))

/-- Everything but the threads. -/
structure Shared (σ : Type) where
  locks : Nat → Lock
  mutex : Bool
  poisoned : Bool
  cache : List (CompareArgs × Nat × List ExtrinsicDiff)
  repo : Str → σ
  clock : Nat
  log : List (Entry σ)

/-- State of the server; the number of a request is its position. -/
structure Config (σ : Type) where
  threads : List (Pc σ)
  sh : Shared σ

variable {σ : Type}

/-- Update at one point. -/
def updAt {κ τ : Type} [DecidableEq κ] (f : κ → τ) (k : κ) (v : τ) : κ → τ := fun x => if x = k then v else f x

/-- Can the shard be taken shared? -/
def Lock.canRead (srv : Server) (l : Lock) : Prop := l.writer = false ∧ (srv.writerPref = true → l.waiting = 0)
/-- Can the shard be taken exclusively? -/
def Lock.canWrite (l : Lock) : Prop := l.writer = false ∧ l.readers = 0

/-- Change the lock of shard `k`. -/
def Shared.setLock (s : Shared σ) (k : Nat) (f : Lock → Lock) : Shared σ := { s with locks := updAt s.locks k (f (s.locks k)) }
/-- Take shard `k` shared. -/
def Shared.takeRead (s : Shared σ) (k : Nat) : Shared σ := s.setLock k fun l => { l with readers := l.readers + 1 }
/-- Release shard `k`. -/
def Shared.dropRead (s : Shared σ) (k : Nat) : Shared σ := s.setLock k fun l => { l with readers := l.readers - 1 }
/-- Take shard `k` exclusively after waiting. -/
def Shared.takeWrite (s : Shared σ) (k : Nat) : Shared σ := s.setLock k fun l => { l with writer := true, waiting := l.waiting - 1 }
/-- Release shard `k`. -/
def Shared.dropWrite (s : Shared σ) (k : Nat) : Shared σ := s.setLock k fun l => { l with writer := false }
/-- Begin to wait for shard `k`. -/
def Shared.wait (s : Shared σ) (k : Nat) : Shared σ := s.setLock k fun l => { l with waiting := l.waiting + 1 }
/-- Record. -/
def Shared.note (s : Shared σ) (es : List (Entry σ)) : Shared σ := { s with log := s.log ++ es }

/-- Entry of the cache. -/
def cacheGet (cache : List (CompareArgs × Nat × List ExtrinsicDiff)) (a : CompareArgs) : Option (Nat × List ExtrinsicDiff) :=
  (cache.find? fun e => e.1 = a).map (·.2)

/-- `cache.remove(&key)` -/
def cacheRemove (cache : List (CompareArgs × Nat × List ExtrinsicDiff)) (a : CompareArgs) : List (CompareArgs × Nat × List ExtrinsicDiff) :=
  cache.filter fun e => e.1 ≠ a

/-- `instant.elapsed().as_secs() < 600` -/
def isFresh (stored now : Nat) : Bool := (now - stored) / 10 ^ 9 < 600

/-- What follows the iteration over the repositories. -/
def afterScan : Option CompareArgs → Pc σ
  | none => .finished
  | some a => .lookup a

/-- One step of the request number `id`, from `Pc` and shared state to `Pc` and shared state. -/
inductive Act1 (W : World) (srv : Server) (id : Nat) : Pc W.State → Shared W.State → Pc W.State → Shared W.State → Prop
  | scanTake {next i s} (hi : i < srv.shards) (h : (s.locks i).canRead srv) :
      Act1 W srv id (.scan next i) s (.scanBoth next i) (s.takeRead i)
  | scanDrop {next i s} : Act1 W srv id (.scanBoth next i) s (.scan next (i + 1)) (if i = 0 then s else s.dropRead (i - 1))
  | scanEnd {next i s} (hi : srv.shards ≤ i) : Act1 W srv id (.scan next i) s (afterScan next) (if i = 0 then s else s.dropRead (i - 1))
  | lookup {a s} (h : (s.locks (srv.shardOf a.repo)).canRead srv) :
      Act1 W srv id (.lookup a) s (.looking a) (s.takeRead (srv.shardOf a.repo))
  | known {a s} (h : srv.repos a.repo ≠ none) : Act1 W srv id (.looking a) s (.wantMutex a) (s.dropRead (srv.shardOf a.repo))
  | unknown {a s} (h : srv.repos a.repo = none) :
      Act1 W srv id (.looking a) s .finished ((s.dropRead (srv.shardOf a.repo)).note
        [.answered id a (.error (str% "Unknown repo organization '" ++ a.repo ++ str% "'")) false s.clock])
  | lock {a s} (h : s.mutex = false) (hp : s.poisoned = false) : Act1 W srv id (.wantMutex a) s (.check a) { s with mutex := true }
  | lockPoisoned {a s} (h : s.mutex = false) (hp : s.poisoned = true) : Act1 W srv id (.wantMutex a) s .finished (s.note [.died id])
  | hit {a s t v} (h : cacheGet s.cache a = some (t, v)) (hf : isFresh t s.clock = true) :
      Act1 W srv id (.check a) s .finished ({ s with mutex := false }.note [.answered id a (.ok v) true s.clock])
  | expired {a s t v} (h : cacheGet s.cache a = some (t, v)) (hf : isFresh t s.clock = false) :
      Act1 W srv id (.check a) s (.wantShard a) ({ s with cache := cacheRemove s.cache a }.wait (srv.shardOf a.repo))
  | miss {a s} (h : cacheGet s.cache a = none) : Act1 W srv id (.check a) s (.wantShard a) (s.wait (srv.shardOf a.repo))
  | permit {a s} (ho : HashOrder) (h : (s.locks (srv.shardOf a.repo)).canWrite) :
      Act1 W srv id (.wantShard a) s (.running a ho (s.repo a.repo) (doCompare srv ho a)) (s.takeWrite (srv.shardOf a.repo))
  | work {a ho st p p' s w} (h : p.step W (s.repo a.repo) = some (p', w)) :
      Act1 W srv id (.running a ho st p) s (.running a ho st p') { s with repo := updAt s.repo a.repo w }
  | ended {a ho st r s} (h : r ≠ .diverge) :
      Act1 W srv id (.running a ho st (.done r)) s (.store a ho st (s.repo a.repo) r) (s.dropWrite (srv.shardOf a.repo))
  | storeOk {a ho st fi v s} : Act1 W srv id (.store a ho st fi (.ok v)) s .finished
      ({ s with mutex := false, cache := (a, s.clock, v) :: cacheRemove s.cache a }.note
        [.computed id a ho st fi (.ok v) s.clock, .answered id a (.ok v) false s.clock])
  | storeErr {a ho st fi m s} : Act1 W srv id (.store a ho st fi (.err m)) s .finished
      ({ s with mutex := false }.note [.computed id a ho st fi (.err m) s.clock, .answered id a (.error m) false s.clock])
  | storePanic {a ho st fi s} : Act1 W srv id (.store a ho st fi .panic) s .finished
      ({ s with mutex := false, poisoned := true }.note [.computed id a ho st fi .panic s.clock, .died id])
  | branchTake {r f s} (h : (s.locks (srv.shardOf r)).canRead srv) :
      Act1 W srv id (.branchWant r f) s (.branching r (branchesP srv r f)) (s.takeRead (srv.shardOf r))
  | branchWork {r p p' s w} (h : p.step W (s.repo r) = some (p', w)) :
      Act1 W srv id (.branching r p) s (.branching r p') { s with repo := updAt s.repo r w }
  | branchOk {r v s} : Act1 W srv id (.branching r (.done (.ok v))) s .finished ((s.dropRead (srv.shardOf r)).note [.listed id r (.ok v)])
  | branchErr {r m s} : Act1 W srv id (.branching r (.done (.err m))) s .finished ((s.dropRead (srv.shardOf r)).note [.listed id r (.error m)])
  | branchPanic {r s} : Act1 W srv id (.branching r (.done .panic)) s .finished ((s.dropRead (srv.shardOf r)).note [.died id])

/-- Where a request begins. -/
def begin : Request → Pc σ
  | .compare a => .scan (some a) 0
  | .branches r f => .branchWant r f
  | .list => .scan none 0

/-- One step of some request. -/
def ThreadStep (W : World) (srv : Server) (i : Nat) (c c' : Config W.State) : Prop :=
  ∃ pc pc' s', c.threads[i]? = some pc ∧ Act1 W srv i pc c.sh pc' s' ∧ c' = ⟨c.threads.set i pc', s'⟩

/-- One step of the server: a request proceeds, a request arrives, or time passes. -/
inductive Step (W : World) (srv : Server) : Config W.State → Config W.State → Prop
  | thread {c c'} (i : Nat) (h : ThreadStep W srv i c c') : Step W srv c c'
  | arrive {c} (r : Request) : Step W srv c ⟨c.threads ++ [begin r], c.sh⟩
  | tick {c} (n : Nat) : Step W srv c ⟨c.threads, { c.sh with clock := c.sh.clock + n }⟩

/-- The state in which the server starts: nothing is locked or cached. -/
def initial (W : World) (repo : Str → W.State) (clock : Nat) : Config W.State :=
  ⟨[], ⟨fun _ => ⟨0, false, 0⟩, false, false, [], repo, clock, []⟩⟩

/-- The states that the server can reach. -/
inductive Reachable (W : World) (srv : Server) : Config W.State → Prop
  | init (repo : Str → W.State) (clock : Nat) : Reachable W srv (initial W repo clock)
  | step {c c'} (h : Reachable W srv c) (hs : Step W srv c c') : Reachable W srv c'

end Swc
