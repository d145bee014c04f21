/-
Independent specification of what caches between a reader and a server may do (RFC 9111), and of servers that are replaced by others.

Simplified: time is counted in seconds and ans take none; a cache is asked for requests with the same method, path, query and headers (the compression adds `Vary`, `web/src/main.rs:149`); of the
directives of requests (`Cache-Control` of the browser) none is used.
-/
import Verif.Model.HttpCache

namespace Swc.Spec

open Swc

/-- RFC 9110 5.6.1 and RFC 9111 5.2: the members of a list, without the white space around them. -/
def members (header : Str) : List Str :=
  (header.splitOn ',').map fun m => ((m.dropWhile (· = ' ')).reverse.dropWhile (· = ' ')).reverse

/-- RFC 9111 5.2.2.4: the answer must not be used again without asking the server. -/
def MustAsk (x : Reply) : Prop := ∃ h, x.cacheControl = some h ∧ str% "no-cache" ∈ members h

/-- RFC 9111 5.2.2.1: for how many seconds the answer is fresh, if it says so. -/
def SaysFresh (x : Reply) (seconds : Nat) : Prop := ∃ h, x.cacheControl = some h ∧ str% "max-age=" ++ natToStr seconds ∈ members h

/-- RFC 9110 15.1: the status codes of which caches may guess for how long the answer is fresh. -/
def guessable : List Nat := [200, 203, 204, 206, 300, 301, 308, 404, 405, 410, 414, 501]

/-- RFC 9111 4 and 4.2: the answer to an earlier request is fresh enough to be used again: as it says, or, if it does not say anything, as the cache guesses. -/
def Fresh (x : Reply) (age : Nat) : Prop :=
  ¬ MustAsk x ∧ ((∃ n, SaysFresh x n ∧ age < n) ∨ (x.cacheControl = none ∧ x.resp.status ∈ guessable))

/-- What is answered at which time. -/
abbrev Answering := Nat → HttpRequest → Reply → Prop

/-- What a reader can get at time `t` through `k` caches that use answers again as `reuse` permits. -/
inductive Gets (ans : Answering) (reuse : Reply → Nat → Prop) : Nat → Nat → HttpRequest → Reply → Prop
  | server {t : Nat} {r : HttpRequest} {x : Reply} (h : ans t r x) : Gets ans reuse 0 t r x
  | forward {k t : Nat} {r : HttpRequest} {x : Reply} (h : Gets ans reuse k t r x) : Gets ans reuse (k + 1) t r x
  | again {k t t' : Nat} {r : HttpRequest} {x : Reply} (ht : t' < t) (h : Gets ans reuse k t' r x) (hr : reuse x (t - t')) : Gets ans reuse (k + 1) t r x

/-- The site `site t` answers at time `t`: requests that can be answered at once in that way, others in any way, all with the header of the server. -/
def AnsweredBy (site : Nat → Site) (static : Option Str) (ans : Answering) : Prop :=
  ∀ t r x, ans t r x → x.cacheControl = (site t).cacheHeader static r ∧ ∀ resp, (site t).accept r = .answer resp → x.resp = resp

end Swc.Spec
