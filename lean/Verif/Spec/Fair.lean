/-
Independent specification of infinite runs of the server in which requests keep coming.
-/
import Verif.Spec.Web
import Verif.Model.Site

namespace Swc.Spec

open Swc

/-- What happens besides the steps of requests: nothing, a request arrives, or time passes. -/
def Meanwhile (W : World) (c c' : Config W.State) : Prop :=
  c' = c ∨ (∃ r, c' = ⟨c.threads ++ [begin r], c.sh⟩) ∨ ∃ d, c' = ⟨c.threads, { c.sh with clock := c.sh.clock + d }⟩

/-- An infinite run of the server from a state that it can reach; `who` tells which request makes the step, if one does. -/
structure Endless (W : World) (srv : Server) (g : Nat → Config W.State) (who : Nat → Option Nat) : Prop where
  start : Reachable W srv (g 0)
  own : ∀ n i, who n = some i → ThreadStep W srv i (g n) (g (n + 1))
  around : ∀ n, who n = none → Meanwhile W (g n) (g (n + 1))

/-- Request number `i` can make a step. -/
def CanStep (W : World) (srv : Server) (i : Nat) (c : Config W.State) : Prop := ∃ c', ThreadStep W srv i c c'

/-- Nobody is passed over forever: a request that can make a step again and again makes a step again and again. -/
def FairTo (W : World) (srv : Server) (g : Nat → Config W.State) (who : Nat → Option Nat) : Prop :=
  ∀ i, (∀ n, ∃ m, n ≤ m ∧ CanStep W srv i (g m)) → ∀ n, ∃ m, n ≤ m ∧ who m = some i

/-- An infinite run of the whole site: requests are read and answered at once or handed over to a handler, handlers make steps, time passes. -/
structure EndlessSite (W : World) (s : Site) (g : Nat → SiteState W.State) (who : Nat → Option Nat) : Prop where
  start : s.Reachable W (g 0)
  own : ∀ n i, who n = some i → ThreadStep W s.srv i (g n).conf (g (n + 1)).conf ∧ (g (n + 1)).inbox = (g n).inbox
  around : ∀ n, who n = none → g (n + 1) = g n ∨
    (∃ r resp, s.accept r = .answer resp ∧ g (n + 1) = ⟨(g n).conf, (g n).inbox ++ [(r, .inl resp)]⟩) ∨
    (∃ r req, s.accept r = .run req ∧
      g (n + 1) = ⟨⟨(g n).conf.threads ++ [begin req], (g n).conf.sh⟩, (g n).inbox ++ [(r, .inr (g n).conf.threads.length)]⟩) ∨
    ∃ d, g (n + 1) = ⟨⟨(g n).conf.threads, { (g n).conf.sh with clock := (g n).conf.sh.clock + d }⟩, (g n).inbox⟩

end Swc.Spec
