/-
Model of the server as a web site: from its command line over the requests, as they arrive, to the answers (`web/src/main.rs:95-174` and the handlers of
`:176-388`).

* `actix` compares the path of a request with the addresses after decoding `%XY`, except where it stands for `%`, `/` or `+` (`actix-router` 0.5,
  `Quoter`).  The services are tried in order of registration; a handler with `#[get]` is passed over for other methods; if none is left the answer
  is 404 without content.
* `fs::Files::new("/static", …)` takes every request below `/static`; what it answers is left open, and so are the picture of the badge and the texts of
  errors in queries.
* A handler that panics gives no answer.
* Left out: sockets, TLS, compression, logging (the headers for caches are in `Model/HttpCache.lean`).
-/
import Verif.Model.BranchJson
import Verif.Model.CommandLine

namespace Swc

/-! ### Requests and where they go -/

/-- A request: method, and path and query as written in the request line. -/
structure HttpRequest where
  method : Str
  path : Bytes
  query : Bytes
  deriving DecidableEq

/-- The services of `web/src/main.rs:151-158`; `files` with the rest of the path. -/
inductive Handler where
  | files (tail : Bytes)
  | compare
  | badge
  | version
  | root
  | branches
  | mergeRequests
  | compareCommit
  deriving DecidableEq

/-- `actix_router::Quoter` with the protected characters `%/+`. -/
def requote : Bytes → Bytes
  | 0x25 :: a :: b :: l =>
    match hexByte a, hexByte b with
    | some x, some y =>
      let c := UInt8.ofNat (x * 16 + y)
      if c = 0x25 ∨ c = 0x2F ∨ c = 0x2B then 0x25 :: requote (a :: b :: l) else c :: requote l
    | _, _ => 0x25 :: requote (a :: b :: l)
  | c :: l => c :: requote l
  | [] => []

/-- The addresses in order of registration, `web/src/main.rs:152-158`, as given in the attributes `:176`, `:184`, `:212`, `:289`, `:330`, `:342`, `:366`. -/
def routes : List (Str × Handler) :=
  [(str% "/compare", .compare), (str% "/version/badge", .badge), (str% "/version", .version), (str% "/", .root), (str% "/branches", .branches),
    (str% "/compare-mr", .mergeRequests), (str% "/compare-commit", .compareCommit)]

/-- What follows `/static`, if the path is there or below; `web/src/main.rs:151`. -/
def staticTail (path : Bytes) : Option Bytes :=
  let p := utf8 (str% "/static")
  if path.take p.length = p ∧ ((path.drop p.length).head?.getD 0x2F) = 0x2F then some (path.drop p.length) else none

/-- `web/src/main.rs:147-159`: the handler of a request. -/
def route (r : HttpRequest) : Option Handler :=
  match staticTail (requote r.path) with
  | some t => some (.files t)
  | none => if r.method = str% "GET" then (routes.find? fun p => utf8 p.1 = requote r.path).map (·.2) else none

/-! ### The site -/

/-- What the answers depend on besides the shared state. -/
structure Site where
  srv : Server
  /-- The map of repositories in the order of iteration. -/
  entries : List Repo
  /-- `subweight_core::VERSION` -/
  version : Str
  /-- The picture for a version, `web/src/main.rs:368-374`. -/
  badge : Str → Str
  /-- The answers below `/static`. -/
  files : Str → Bytes → Response
  /-- The error text for a query. -/
  queryError : Bytes → Str
  /-- `actix`'s answer to a query that an extractor cannot read: 400. -/
  badQuery : Bytes → Str
  /-- `ResponseError for std::io::Error`: the status depends on the kind of the error, which is not modelled. -/
  ioStatus : Str → Nat
  ioStatus_mem : ∀ m, ioStatus m = 403 ∨ ioStatus m = 404 ∨ ioStatus m = 500
  u : Utf8Lossy
  ent : Entities

/-- `REPOS.iter().map(|r| r.key().clone())`. -/
def Site.names (s : Site) : List Str := s.entries.map (·.name)

/-- `REPOS.get(&args.repo).map(|r| r.organization.clone())`, `web/src/main.rs:303`. -/
def Site.organization (s : Site) (r : Str) : Option Str := (s.entries.find? fun e => e.name = r).map (·.organization)

/-- The content type of texts. -/
def textPlain : Str := str% "text/plain; charset=utf-8"

/-- `web/src/main.rs:75-78` and `:343`: the query of `/version`; a second value is an error. -/
def parseVersionQuery (u : Utf8Lossy) (q : Bytes) : Option (Option Str) :=
  (formPairs u q).foldlM (fun slot p => visitField (str% "is") some slot p) none

/-- What is done with a request: an answer at once, or a request for the shared state. -/
inductive Accepted where
  | answer (r : Response)
  | run (r : Request)

/-- What is done with a request. -/
def Site.accept (s : Site) (r : HttpRequest) : Accepted :=
  match route r with
  | none => .answer ⟨404, [], []⟩
  | some (.files t) => .answer (s.files r.method t)
  | some .compare => match requestArgs s.u s.ent r.query with
    | none => .answer ⟨500, textHtml, errorPage (s.queryError r.query)⟩
    | some a => .run (.compare a)
  | some .badge => .answer ⟨200, str% "image/svg+xml", s.badge s.version⟩
  | some .version => match parseVersionQuery s.u r.query with
    | none => .answer ⟨400, textPlain, s.badQuery r.query⟩
    | some is => .answer (Swc.version s.version is)
  | some .branches => match parseBranchQuery s.u r.query with
    | none => .answer ⟨500, textPlain, str% "Failed to parse query: " ++ s.queryError r.query⟩
    | some (repo, fetch) => .run (.branches repo fetch)
  | some .root | some .mergeRequests | some .compareCommit => .run .list

/-- The answer to `/branches`, `web/src/main.rs:213-287`. -/
def Site.branchesResponse (s : Site) : Except Str (List (Str × Str)) → Response
  | .ok l => ⟨200, str% "application/json", branchesBody l⟩
  | .error m => ⟨s.ioStatus m, textPlain, m⟩

/-- The pages that only show the repositories: `web/src/main.rs:176-189` and `:330-334`. -/
def Site.listPage (s : Site) : Handler → Option Response
  | .root => some ⟨200, textHtml, rootPage s.names⟩
  | .compareCommit => some ⟨200, textHtml, rootPage s.names⟩
  | .mergeRequests => some ⟨200, textHtml, mergeRequestPage s.entries⟩
  | _ => none

/-! ### Its states -/

/-- The shared state with the requests received so far, each with its answer or with its number in the shared state. -/
structure SiteState (σ : Type) where
  conf : Config σ
  inbox : List (HttpRequest × (Response ⊕ Nat))

/-- One step. -/
inductive Site.Step (W : World) (s : Site) : SiteState W.State → SiteState W.State → Prop
  | thread {st : SiteState W.State} {c} (i : Nat) (h : ThreadStep W s.srv i st.conf c) : Step W s st ⟨c, st.inbox⟩
  | now {st : SiteState W.State} (r : HttpRequest) {resp} (h : s.accept r = .answer resp) : Step W s st ⟨st.conf, st.inbox ++ [(r, .inl resp)]⟩
  | later {st : SiteState W.State} (r : HttpRequest) {req} (h : s.accept r = .run req) :
    Step W s st ⟨⟨st.conf.threads ++ [begin req], st.conf.sh⟩, st.inbox ++ [(r, .inr st.conf.threads.length)]⟩
  | tick {st : SiteState W.State} (n : Nat) : Step W s st ⟨⟨st.conf.threads, { st.conf.sh with clock := st.conf.sh.clock + n }⟩, st.inbox⟩

/-- The states that the site can reach. -/
inductive Site.Reachable (W : World) (s : Site) : SiteState W.State → Prop
  | init (repo : Str → W.State) (clock : Nat) : Reachable W s ⟨initial W repo clock, []⟩
  | step {st st'} (h : Reachable W s st) (hs : Site.Step W s st st') : Reachable W s st'

/-- What `do_compare_cached` returned. -/
def outcome (cached : Bool) : Except Str (List ExtrinsicDiff) → Res (List ExtrinsicDiff × Bool)
  | .ok diff => .ok (diff, cached)
  | .error m => .err m

/-- The request number `k` has been answered with `resp`. -/
inductive Site.Replied {W : World} (s : Site) (st : SiteState W.State) (k : Nat) : Response → Prop
  | now {r resp} (h : st.inbox[k]? = some (r, .inl resp)) : Replied s st k resp
  | compared {r id a x cached t resp} (h : st.inbox[k]? = some (r, .inr id)) (hl : Entry.answered id a x cached t ∈ st.conf.sh.log)
    (hp : compareResponse s.srv.build s.version s.names (.ok a) (s.organization a.repo) (outcome cached x) = .ok resp) : Replied s st k resp
  | listed {r id repo x} (h : st.inbox[k]? = some (r, .inr id)) (hl : Entry.listed id repo x ∈ st.conf.sh.log) :
    Replied s st k (s.branchesResponse x)
  | shown {r id handler resp} (h : st.inbox[k]? = some (r, .inr id)) (hf : st.conf.threads[id]? = some .finished) (hr : route r = some handler)
    (hp : s.listPage handler = some resp) : Replied s st k resp

/-! ### Its start -/

/-- `PathBuf::join`. -/
def Path.join (p : Path) (name : Str) : Path :=
  match readPath name with
  | none => p
  | some (.root :: l) => .root :: l
  | some (.cur :: l) => p ++ l
  | some l => p ++ l

/-- What the start depends on. -/
structure Machine where
  /-- `git remote get-url origin` in a directory. -/
  origin : Path → GitOut
  exists_ : Path → Bool
  isDir : Path → Bool
  /-- The characters that `{:?}` does not escape. -/
  plain : Char → Bool

/-- `web/src/main.rs:95-142`: the options and the map of repositories that the server starts with, given its arguments; `none` if `clap` ends the
program. -/
def serverStart (m : Machine) (args : List Str) : Option (Res (ServerCmd × List (Str × Repo))) :=
  (readServerLine args).map fun c =>
    (startup ⟨c.root.join, m.origin, m.exists_, m.isDir c.static, debugStr m.plain c.static.display⟩ c.repos).map fun repos => (c, repos)

/-- The site shows the repositories of the map and works on them. -/
structure Site.Serves (s : Site) (m : List (Str × Repo)) : Prop where
  repos : ∀ n, s.srv.repos n = (m.lookup n).map (·.path)
  entries : ∀ r, r ∈ s.entries ↔ m.lookup r.name = some r
  nodup : s.names.Nodup

/-- The site that the program becomes with these arguments on this machine. -/
def Site.Started (s : Site) (m : Machine) (args : List Str) (c : ServerCmd) : Prop :=
  ∃ repos, serverStart m args = some (.ok (c, repos)) ∧ s.Serves repos

end Swc
