/-
Independent specification of the web site: addresses, ways to write them, and links.
-/
import Verif.Model.Site
import Verif.Spec.Query
import Verif.Spec.Html
import Verif.Spec.Web
import Verif.Spec.Branches

namespace Swc.Spec

open Swc

/-- Ways to write a path: every byte but `%` as itself; every byte but `%`, `/` and `+` with two hexadecimal digits. -/
inductive WritesPath : Bytes → Bytes → Prop
  | nil : WritesPath [] []
  | plain {b : UInt8} {s t : Bytes} (hb : b ≠ 0x25) (hw : WritesPath s t) : WritesPath (b :: s) (b :: t)
  | hex {b h l : UInt8} {s t : Bytes} (hh : HexOf (b.toNat / 16) h) (hl : HexOf (b.toNat % 16) l) (h1 : b ≠ 0x25) (h2 : b ≠ 0x2F) (h3 : b ≠ 0x2B)
    (hw : WritesPath s t) : WritesPath (b :: s) (0x25 :: h :: l :: t)

/-- The address of each page. -/
def address : Handler → Option Str
  | .files _ => none
  | .root => some (str% "/")
  | .compare => some (str% "/compare")
  | .compareCommit => some (str% "/compare-commit")
  | .mergeRequests => some (str% "/compare-mr")
  | .branches => some (str% "/branches")
  | .version => some (str% "/version")
  | .badge => some (str% "/version/badge")

/-- A request to read from an address. -/
def Requests (r : HttpRequest) (a : Str) : Prop := r.method = str% "GET" ∧ WritesPath (utf8 a) r.path

/-- A request for `/static` or something below. -/
def BelowStatic (r : HttpRequest) : Prop :=
  ∃ a b, r.path = a ++ b ∧ WritesPath (utf8 (str% "/static")) a ∧ (b = [] ∨ ∃ c, b = 0x2F :: c)

/-- The links of a page. -/
def linksIn (ts : List Token) : List Str :=
  ts.filterMap fun
    | .start name attrs => if name = str% "a" then attrs.lookup (str% "href") else none
    | _ => none

/-- Following a link that begins with a slash: the path ends at `?`, the query at `#` (in both, `navigate` encodes characters; the paths here have
none of them). -/
def follow (href : Str) : HttpRequest :=
  ⟨str% "GET", utf8 (href.takeWhile fun c => c ≠ '?' ∧ c ≠ '#'),
    match href.dropWhile fun c => c ≠ '?' ∧ c ≠ '#' with
    | '?' :: q => navigate q
    | _ => []⟩

/-- For the request number `id`, which is for branches, git is run in the repository, from one state of the server to the next, and answers. -/
def RunsGit (W : World) (srv : Server) (id : Nat) (repo : Str) (args : List Str) (out : GitOut) (c1 c2 : Config W.State) : Prop :=
  Reachable W srv c1 ∧ ThreadStep W srv id c1 c2 ∧ (∃ rest, c1.threads[id]? = some (.branching repo (.git args rest))) ∧
    W.git (c1.sh.repo repo) args = (out, c2.sh.repo repo)

/-- The arguments with which git fetches everything. -/
def fetchAll : List Str := [str% "fetch", str% "--all", str% "--prune", str% "--tags"]

/-- The arguments with which git prints the branches. -/
def printRefs : List Str := [str% "ls-remote", str% "--tags", str% "--heads"]

/-- If asked to, the request has fetched. -/
def FetchedFor (W : World) (srv : Server) (c : Config W.State) (id : Nat) (repo : Str) (fetch : Bool) : Prop :=
  fetch = true → ∃ c1 c2 out err utf8, RunsGit W srv id repo fetchAll (.exited true out err utf8) c1 c2 ∧ Later W srv c2 c

/-- The list of branches is what git printed in the repository for the request number `id`, after it had fetched, if it was asked to. -/
def FreshList (W : World) (srv : Server) (c : Config W.State) (id : Nat) (repo : Str) (fetch : Bool) (list : List (Str × Str)) : Prop :=
  ∃ c1 c2 stdout stderr utf8, RunsGit W srv id repo printRefs (.exited true stdout stderr utf8) c1 c2 ∧ Later W srv c2 c ∧
    Lists stdout list ∧ FetchedFor W srv c1 id repo fetch

/-- Git did not fetch or did not print, for the request number `id`, and what is said about it. -/
def ListingFails (W : World) (srv : Server) (c : Config W.State) (id : Nat) (repo : Str) (fetch : Bool) (why : Str) : Prop :=
  ∃ c1 c2 e, Later W srv c2 c ∧
    ((fetch = true ∧ why = str% "Failed to fetch branches: '" ++ e ++ str% "'" ∧
        (RunsGit W srv id repo fetchAll (.spawnFailed e) c1 c2 ∨ ∃ out, RunsGit W srv id repo fetchAll (.exited false out e true) c1 c2)) ∨
      (FetchedFor W srv c1 id repo fetch ∧
        ((why = e ∧ RunsGit W srv id repo printRefs (.spawnFailed e) c1 c2) ∨
          (why = str% "Failed to list branches: " ++ e ∧ ∃ out, RunsGit W srv id repo printRefs (.exited false out e true) c1 c2))))

/-- What git answered to the request number `id` crashes it: a message that is not UTF-8, or lines that are no references. -/
def ListingCrashes (W : World) (srv : Server) (c : Config W.State) (id : Nat) (repo : Str) (fetch : Bool) : Prop :=
  ∃ c1 c2 out e, Later W srv c2 c ∧
    ((fetch = true ∧ RunsGit W srv id repo fetchAll (.exited false out e false) c1 c2) ∨
      (FetchedFor W srv c1 id repo fetch ∧
        (RunsGit W srv id repo printRefs (.exited false out e false) c1 c2 ∨
          ∃ utf8, RunsGit W srv id repo printRefs (.exited true out e utf8) c1 c2 ∧ Garbled out)))

/-- Why a request for a comparison has died: the comparison that was made for it has panicked, or an earlier one for another request has. -/
def DiedOf {σ : Type} (log : List (Entry σ)) (id : Nat) (a : CompareArgs) : Prop :=
  ∃ before id' a' ho st fi t between after, log = before ++ .computed id' a' ho st fi .panic t :: (between ++ .died id :: after) ∧
    ((id' = id ∧ a' = a ∧ between = []) ∨ (id' ≠ id ∧ .died id' ∈ between))

/-- The site gets from one state to another. -/
inductive Ahead (W : World) (s : Site) (st : SiteState W.State) : SiteState W.State → Prop
  | refl : Ahead W s st st
  | step {st1 st2} (h : Ahead W s st st1) (hs : s.Step W st1 st2) : Ahead W s st st2

end Swc.Spec
