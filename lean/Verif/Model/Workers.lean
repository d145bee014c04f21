/-
Model of the worker threads of the web server.

* `web/src/main.rs:144-173`: `HttpServer::new(…).workers(4)`, `.bind(…)`, `.run()`.  The accepting thread of `actix` gives every connection to one of
  the workers, with which it stays.  A worker is one thread; it polls the tasks of its connections one at a time and in an arbitrary order.
* The handlers (`web/src/main.rs:176-190`, `:213`, `:290`, `:331`, `:343`, `:367`) are `async` but never `await`: once a handler has been polled, its
  worker does nothing else until the handler has returned or panicked, even while it waits for a lock or for git.
* A panic ends the task of the connection, not the worker.
* Not modelled: keep-alive and pipelining (every request has its own connection), and the work of `actix` between reading a request and
  polling its handler.
-/
import Verif.Model.Site

namespace Swc

/-- A connection with its one request: the worker it belongs to, and the place of the request in the order of those that have been looked at. -/
structure Conn where
  worker : Nat
  request : HttpRequest
  taken : Option Nat
  deriving DecidableEq

/-- The server with its workers. -/
structure PoolState (σ : Type) where
  site : SiteState σ
  conns : List Conn
  /-- The handler that each worker is in. -/
  busy : Nat → Option Nat

/-- `web/src/main.rs:160`. -/
def workers : Nat := 4

/-- Who does something: nobody or the outside, the worker of a connection that looks at its request, or a worker in its handler. -/
inductive Ev where
  | around
  | take (k : Nat)
  | go (id : Nat)
  deriving DecidableEq

/-- What can happen. -/
inductive Pool.Step (W : World) (s : Site) (num : Nat) : PoolState W.State → Ev → PoolState W.State → Prop
  /-- A request comes in and is given to a worker. -/
  | come {p : PoolState W.State} (w : Nat) (r : HttpRequest) (hw : w < num) : Step W s num p .around { p with conns := p.conns ++ [⟨w, r, none⟩] }
  /-- A worker looks at a request that can be answered at once. -/
  | now {p : PoolState W.State} {k w r resp} (hk : p.conns[k]? = some ⟨w, r, none⟩) (hf : p.busy w = none) (ha : s.accept r = .answer resp) :
    Step W s num p (.take k) ⟨⟨p.site.conf, p.site.inbox ++ [(r, .inl resp)]⟩, p.conns.set k ⟨w, r, some p.site.inbox.length⟩, p.busy⟩
  /-- A worker enters a handler. -/
  | enter {p : PoolState W.State} {k w r req} (hk : p.conns[k]? = some ⟨w, r, none⟩) (hf : p.busy w = none) (ha : s.accept r = .run req) :
    Step W s num p (.take k) ⟨⟨⟨p.site.conf.threads ++ [begin req], p.site.conf.sh⟩, p.site.inbox ++ [(r, .inr p.site.conf.threads.length)]⟩,
      p.conns.set k ⟨w, r, some p.site.inbox.length⟩, fun v => if v = w then some p.site.conf.threads.length else p.busy v⟩
  /-- A worker goes on in its handler. -/
  | work {p : PoolState W.State} {w id c} (hb : p.busy w = some id) (h : ThreadStep W s.srv id p.site.conf c) (hn : c.threads[id]? ≠ some .finished) :
    Step W s num p (.go id) ⟨⟨c, p.site.inbox⟩, p.conns, p.busy⟩
  /-- A worker leaves its handler. -/
  | leave {p : PoolState W.State} {w id c} (hb : p.busy w = some id) (h : ThreadStep W s.srv id p.site.conf c) (hn : c.threads[id]? = some .finished) :
    Step W s num p (.go id) ⟨⟨c, p.site.inbox⟩, p.conns, fun v => if v = w then none else p.busy v⟩
  | tick {p : PoolState W.State} (d : Nat) :
    Step W s num p .around { p with site := ⟨⟨p.site.conf.threads, { p.site.conf.sh with clock := p.site.conf.sh.clock + d }⟩, p.site.inbox⟩ }

/-- The states that the server with `num` workers can reach. -/
inductive Pool.Reachable (W : World) (s : Site) (num : Nat) : PoolState W.State → Prop
  | init (repo : Str → W.State) (clock : Nat) : Reachable W s num ⟨⟨initial W repo clock, []⟩, [], fun _ => none⟩
  | step {p p'} (h : Reachable W s num p) {e} (hs : Pool.Step W s num p e p') : Reachable W s num p'

/-- Connection number `k` has got the answer `resp`. -/
def Pool.Answered {W : World} (s : Site) (p : PoolState W.State) (k : Nat) (resp : Response) : Prop :=
  ∃ c j, p.conns[k]? = some c ∧ c.taken = some j ∧ s.Replied p.site j resp

end Swc
