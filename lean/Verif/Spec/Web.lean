/-
Independent specification of what a comparison of the web server means, and of runs of the server.
-/
import Verif.Model.Web

namespace Swc.Spec

open Swc

/-- Age limit of cached results in nanoseconds: 600 seconds. -/
def maxAge : Nat := 600 * 1000000000

/-- What follows a comparison: filtering and sorting. -/
def finish (filter : FilterParams) : Res (List ExtrinsicDiff) → Res (List ExtrinsicDiff)
  | .ok diff => .ok (sortChanges (filterChanges diff filter))
  | .err m => .err m
  | .panic => .panic
  | .diverge => .diverge

/-- Comparing with the arguments `a` in the state `st` of the repository, undisturbed, gives `r` and leaves the state `fi`. -/
def Alone (W : World) (srv : Server) (ho : HashOrder) (a : CompareArgs) (st : W.State) (r : Res (List ExtrinsicDiff)) (fi : W.State) : Prop :=
  ∃ path filter out, srv.repos a.repo = some path
    ∧ filter = { threshold := F64.ofNat a.threshold, change := none, pallet := a.pallet, extrinsic := a.extrinsic : FilterParams }
    ∧ out = compareCommits (W := W) srv.build ho srv.rx srv.env path (trim a.old) (trim a.new)
        { method := a.method, unit := a.unit, ignoreErrors := a.ignoreErrors, gitPull := a.gitPull ≠ some false, offline := false,
          gitForce := true } filter (trim a.pathPattern) 6000 ⟨st, []⟩
    ∧ r = finish filter out.1 ∧ fi = out.2.state

/-- `c'` can be reached from `c`. -/
inductive Later (W : World) (srv : Server) : Config W.State → Config W.State → Prop
  | refl {c} : Later W srv c c
  | step {c c' c''} (h : Later W srv c c') (hs : Step W srv c' c'') : Later W srv c c''

/-- Some request makes a step, possibly after some time has passed. -/
def Advances (W : World) (srv : Server) (c c' : Config W.State) : Prop :=
  ∃ n i, ThreadStep W srv i ⟨c.threads, { c.sh with clock := c.sh.clock + n }⟩ c'

/-- All requests are answered (or have died). -/
def AllDone {σ : Type} (c : Config σ) : Prop := ∀ (i : Nat) pc, c.threads[i]? = some pc → pc = .finished

end Swc.Spec
