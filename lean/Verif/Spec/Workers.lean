/-
Independent specification of what the workers of the server can promise.
-/
import Verif.Model.Workers
import Verif.Spec.Fair

namespace Swc.Spec

open Swc

/-- The handler is in progress: it has been entered and not left. -/
def InProgress {σ : Type} (c : Config σ) (id : Nat) : Prop := ∃ pc, c.threads[id]? = some pc ∧ pc ≠ .finished

/-- The connection has been dealt with: its request was answered, or its handler has panicked. -/
def DealtWith {W : World} (s : Site) (p : PoolState W.State) (k : Nat) : Prop :=
  (∃ resp, Pool.Answered s p k resp) ∨
  ∃ c j r id, p.conns[k]? = some c ∧ c.taken = some j ∧ p.site.inbox[j]? = some (r, .inr id) ∧ Entry.died id ∈ p.site.conf.sh.log

/-- A worker does something, possibly after some time has passed. -/
def Works (W : World) (s : Site) (num : Nat) (p p' : PoolState W.State) : Prop :=
  ∃ d e, e ≠ .around ∧
    Pool.Step W s num { p with site := ⟨⟨p.site.conf.threads, { p.site.conf.sh with clock := p.site.conf.sh.clock + d }⟩, p.site.inbox⟩ } e p'

/-- An infinite run of the server with its workers; `who` tells who makes the step. -/
structure EndlessPool (W : World) (s : Site) (num : Nat) (g : Nat → PoolState W.State) (who : Nat → Ev) : Prop where
  start : Pool.Reachable W s num (g 0)
  step : ∀ n, g (n + 1) = g n ∧ who n = .around ∨ Pool.Step W s num (g n) (who n) (g (n + 1))

/-- Nobody is passed over forever: neither a connection whose worker could look at it again and again, nor a worker in a handler. -/
def FairPool (W : World) (s : Site) (num : Nat) (g : Nat → PoolState W.State) (who : Nat → Ev) : Prop :=
  ∀ e, e ≠ .around → (∀ n, ∃ m, n ≤ m ∧ ∃ p, Pool.Step W s num (g m) e p) → ∀ n, ∃ m, n ≤ m ∧ who m = e

end Swc.Spec
