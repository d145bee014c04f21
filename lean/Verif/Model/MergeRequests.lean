/-
Model of the script of the list of merge requests, `web/static/merge_requests.js`.  Left out: merge requests without an author.
The table orders the rows again by the text of their last column: `Model/MrTable`.
-/
import Verif.Model.StartPage

namespace Swc

/-- The parts of a merge request in the answer of GitHub that the script uses.  `headOwner` is `mr['head']['repo']['owner']['login']`, and `none` if
`mr['head']['repo']` is null, as it is once the fork has been deleted.  `updated` is `new Date(mr.updated_at)` in milliseconds. -/
structure MergeRequest where
  title : Str
  login : Str
  head : Str
  base : Str
  headOwner : Option Str
  updated : Int
  deriving DecidableEq

/-- `new Date(b.updated_at) - new Date(a.updated_at)`: insert before the first one that is not newer. -/
def insertMr (x : MergeRequest) : List MergeRequest → List MergeRequest
  | [] => [x]
  | y :: l => if y.updated ≤ x.updated then x :: y :: l else y :: insertMr x l

/-- `web/static/merge_requests.js:72-74` `data.sort(…)`.  The sort of ECMAScript is stable, which determines its result. -/
def newestFirst : List MergeRequest → List MergeRequest
  | [] => []
  | x :: l => insertMr x (newestFirst l)

/-- `s.substr(0, n)` counts units of UTF-16; half of a character is shown as the replacement character. -/
def substr : Nat → Str → Str
  | 0, _ => []
  | _ + 1, [] => []
  | 1, c :: _ => if c.toNat < 0x10000 then [c] else [Char.ofNat 0xFFFD]
  | n + 2, c :: s => if c.toNat < 0x10000 then c :: substr (n + 1) s else c :: substr n s

/-- `s.includes(t)`. -/
def includes (t : Str) : Str → Bool
  | [] => t.isPrefixOf []
  | c :: s => t.isPrefixOf (c :: s) || includes t s

/-- `web/static/merge_requests.js:3-12` `should_highlight(mr)`.  `toLowerCase` is modelled for ASCII letters: no other character becomes one of the
letters of the word on its own (U+0130 becomes two characters). -/
def shouldHighlight (mr : MergeRequest) : Bool :=
  includes (str% "weight") (asciiLower mr.title) || includes (str% "weight") (asciiLower mr.head) || includes (str% "weight") (asciiLower mr.base)

/-- The colour of a row. -/
inductive RowColor where
  | plain
  | gray
  | seagreen
  deriving DecidableEq

/-- A row of the table. -/
structure MrRow where
  title : Str
  author : Str
  head : Str
  base : Str
  color : RowColor
  /-- The merge request for which there is a handler of double clicks. -/
  opens : Option MergeRequest
  deriving DecidableEq

/-- `web/static/merge_requests.js:80-85`: what DataTables is given for the first four cells of a row.  It assigns each to `innerHTML`, that is, reads it as
HTML. -/
def MrRow.cells (r : MrRow) : List Str := [r.title, r.author, r.head, r.base]

/-- The page once the answer of GitHub has been handled. -/
structure MrPage where
  rows : List MrRow
  highlighted : Nat
  overlay : Bool
  deriving DecidableEq

/-- `web/static/merge_requests.js:80-86`: the cells of a row. -/
def mrRow (mr : MergeRequest) (color : RowColor) (opens : Option MergeRequest) : MrRow :=
  ⟨substr 100 mr.title, mr.login, mr.head, mr.base, color, opens⟩

/-- `web/static/merge_requests.js:76-123`: the loop.  Accessing the owner of no repository throws, after the row has been added; the result then
has no count. -/
def mrLoop (owner : Str) : List MergeRequest → List MrRow × Option Nat
  | [] => ([], some 0)
  | mr :: l =>
    match mr.headOwner with
    | none => ([mrRow mr .plain none], none)
    | some login =>
      let (rows, n) := mrLoop owner l
      if login ≠ owner then (mrRow mr .gray none :: rows, n)
      else if shouldHighlight mr then (mrRow mr .seagreen (some mr) :: rows, n.map (· + 1))
      else (mrRow mr .plain (some mr) :: rows, n)

/-- `web/static/merge_requests.js:67-128`: handle the answer of GitHub.  The count is 0 and the overlay is shown before. -/
def mrPage (owner : Str) (data : List MergeRequest) : MrPage :=
  match mrLoop owner (newestFirst data) with
  | (rows, some n) => ⟨rows, n, false⟩
  | (rows, none) => ⟨rows, 0, true⟩

/-- What a double click on a row does (`web/static/merge_requests.js:89-103`): nothing, fail with the overlay shown, or ask `/branches` and open a link
when it has answered. -/
inductive Click where
  | nothing
  | throws
  | asks (branches link : Bytes)
  deriving DecidableEq

def MrRow.doubleClick (repo : Str) (r : MrRow) : Click :=
  match r.opens with
  | none => .nothing
  | some mr =>
    match mergeRequestQuery repo mr.base mr.head with
    | none => .throws
    | some q => .asks (branchQuery repo true) q

/-- `decodeURI`; `none` stands for an exception. -/
structure DecodeUri where
  decode : Str → Option Str
  plain : ∀ s, '%' ∉ s → decode s = some s

/-- The rest of `s` after `p`. -/
def afterPrefix : Str → Str → Option Str
  | [], s => some s
  | _ :: _, [] => none
  | a :: p, c :: s => if a = c then afterPrefix p s else none

/-- `new RegExp('[?&]' + name + '=([^&#]*)').exec(href)[1]` for a name of letters. -/
def findParam (name : Str) : Str → Option Str
  | [] => none
  | c :: s =>
    match (if c = '?' ∨ c = '&' then afterPrefix (name ++ ['=']) s else none) with
    | some r => some (r.takeWhile fun c => c ≠ '&' ∧ c ≠ '#')
    | none => findParam name s

/-- `web/static/merge_requests.js:18-28` `$.param(name, def)`; `none` if it throws. -/
def urlParam (d : DecodeUri) (name dflt href : Str) : Option Str :=
  match findParam name href with
  | none => some dflt
  | some v => (d.decode v).map fun v => if v = [] then dflt else v

/-- `web/static/merge_requests.js:59-60`: owner and name of the repository whose merge requests are listed. -/
def mrRepository (d : DecodeUri) (href : Str) : Option (Str × Str) := do
  some (← urlParam d (str% "owner") (str% "paritytech") href, ← urlParam d (str% "repo") (str% "polkadot-sdk") href)

/-- The address of a page: everything before the query, the query, and the fragment (with its `#`). -/
structure Href where
  base : Str
  query : Bytes
  fragment : Str

/-- `window.location.href` -/
def Href.text (h : Href) : Str := h.base ++ '?' :: (h.query.map (fun b => Char.ofNat b.toNat) ++ h.fragment)

/-- `web/static/merge_requests.js:32-40`: the address that is opened when an option is selected; `undefined` if there is no second part. -/
def selectRepo (u : Utf8Lossy) (h : Href) (value : Str) : Href :=
  let splits := splitChar ':' value
  { h with query := formSerialize (setParam (str% "repo") (splits[1]?.getD (str% "undefined")) (setParam (str% "owner") (splits[0]?.getD [])
    (formPairs u h.query))) }

end Swc
