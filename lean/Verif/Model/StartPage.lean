/-
Model of the script of the start page, `web/static/root.js`, on the page of `web/templates/root.stpl`: the three lists for the repository and the two
revisions, the summary on its last step, the lists of branches it has asked for and the answers it still waits for.
-/
import Verif.Model.Query

namespace Swc

/-- The values a script compares: strings, and the pairs (arrays) in the answer of `/branches`.  An array is never equal to a string. -/
inductive JsValue where
  | str (s : Str)
  | pair (a b : Str)
  deriving DecidableEq

/-- `Array.prototype.includes`. -/
def jsIncludes (l : List JsValue) (v : JsValue) : Bool := l.contains v

/-- String conversion of the value of a list in which nothing is selected (`null`) or of the selected value. -/
def jsText : Option Str → Str
  | none => str% "null"
  | some s => s

/-- `web/static/root.js:4-6`: the keys of the local storage.  (The two for the revisions are exchanged, which has no effect.) -/
def keyRepo : Str := str% "selected-repo"
/-- `web/static/root.js:5` `lsk_selected_first`. -/
def keyFirst : Str := str% "selected-second"
/-- `web/static/root.js:6` `lsk_selected_second`. -/
def keySecond : Str := str% "selected-first"

/-- The state of the page and of its script. -/
structure StartPage where
  /-- `#repoSelect`, empty at first (`root.js:78`). -/
  repo : Option Str
  /-- The values in `#firstSelect` and `#secondSelect`: always the same for both (`root.js:28-39`). -/
  options : List Str
  /-- `.branchCount`, a question mark at first (`root.stpl:58`, `:70`). -/
  count : Option Nat
  /-- The selected value of `#firstSelect`. -/
  first : Option Str
  /-- The selected value of `#secondSelect`. -/
  second : Option Str
  /-- `#selectedRepo`, `#selectedFirst`, `#selectedSecond`: the summary before the button "Compare" (`root.stpl:82-87`). -/
  shownRepo : Str
  shownFirst : Str
  shownSecond : Str
  /-- `root.js:9` `branches`: the lists received so far.  (`in` also finds inherited properties such as `toString`, which is left out.) -/
  branches : List (Str × List (Str × Str))
  /-- `localStorage`, which outlives the page. -/
  store : Str → Option Str
  /-- The requests to `/branches` that have not been answered, oldest first: repository and `fetch`. -/
  waiting : List (Str × Bool)
  /-- The overlay with the spinner is shown (`root.js:11-20` `loading`). -/
  busy : Bool

/-- `web/static/root.js:76-207`: the page once it is loaded.  `selected_repo in branches` (`:202`) is false, because `branches` is empty then. -/
def StartPage.loaded (store : Str → Option Str) : StartPage :=
  { repo := none, options := [], count := none, first := none, second := none, shownRepo := [], shownFirst := [], shownSecond := [], branches := [],
    store := store, waiting := [], busy := false }

/-- `localStorage.setItem`. -/
def setItem (store : Str → Option Str) (key value : Str) : Str → Option Str := fun k => if k = key then some value else store k

/-- `$('#firstSelect').val(v).trigger('change')`, `web/static/root.js:178-185`: a value that is not offered deselects everything (jQuery), and the
handler returns without effect if nothing is selected. -/
def StartPage.setFirst (p : StartPage) (v : Str) : StartPage :=
  if v ∈ p.options then { p with first := some v, shownFirst := v, store := setItem p.store keyFirst v } else { p with first := none }

/-- `$('#secondSelect').val(v).trigger('change')`, `web/static/root.js:186-193`. -/
def StartPage.setSecond (p : StartPage) (v : Str) : StartPage :=
  if v ∈ p.options then { p with second := some v, shownSecond := v, store := setItem p.store keySecond v } else { p with second := none }

/-- `web/static/root.js:42-49`, `:51-58`: the value to select, given what the local storage remembers and the received list. -/
def wanted (remembered : Option Str) (list : List (Str × Str)) : Str :=
  match remembered with
  | none => str% "master"
  | some s => if jsIncludes (list.map fun b => .pair b.1 b.2) (.str s) then s else str% "master"

/-- `web/static/root.js:23-59` `populate_branches`.  The local storage is read for the second revision after it was written for the first. -/
def StartPage.populate (p : StartPage) (list : List (Str × Str)) : StartPage :=
  let p := { p with options := list.map Prod.fst, count := some list.length, first := none, second := none }
  let p := p.setFirst (wanted (p.store keyFirst) list)
  p.setSecond (wanted (p.store keySecond) list)

/-- `web/static/root.js:61-75` `load_branches`: ask the server, or use what is known. -/
def StartPage.load (p : StartPage) (repo : Str) (fetch : Bool) : StartPage :=
  match p.branches.lookup repo with
  | none => { p with waiting := p.waiting ++ [(repo, fetch)], busy := true }
  | some list => if fetch then { p with waiting := p.waiting ++ [(repo, fetch)], busy := true } else p.populate list

/-- `obj[key] = value`. -/
def setKey {α : Type} (key : Str) (value : α) (l : List (Str × α)) : List (Str × α) := (key, value) :: l.filter (fun p => p.1 ≠ key)

/-- What can happen. -/
inductive PageEvent where
  /-- The user selects a repository. -/
  | repo (r : Str)
  /-- The user selects the first revision. -/
  | first (v : Str)
  /-- The user selects the second revision. -/
  | second (v : Str)
  /-- The user presses "fetch" on the step for the first revision. -/
  | fetchFirst
  /-- The user presses "fetch" on the step for the second revision. -/
  | fetchSecond
  /-- The server answers the `i`-th open request, which is for the repository `r`, with a list. -/
  | answer (i : Nat) (r : Str) (list : List (Str × Str))
  /-- The `i`-th open request fails. -/
  | fail (i : Nat)

/-- What an event does; `none` if it cannot happen.  The user can only select what is offered, `served` being the values for the repository
(`root.stpl:45-47`).  `$('#fetch')` (`root.js:195`) finds only the first of the two buttons with this identifier (`root.stpl:58`, `:70`), so the
other one does nothing.  The answer to a request is handled in `root.js:66-72` (`loading(false)` comes after `populate_branches`, which does
not depend on it); there is no handler for failures. -/
def StartPage.step (served : List Str) (p : StartPage) : PageEvent → Option StartPage
  | .repo r =>
    if r ∈ served then some (StartPage.load { p with repo := some r, shownRepo := r, store := setItem p.store keyRepo r } r false) else none
  | .first v => if v ∈ p.options then some (p.setFirst v) else none
  | .second v => if v ∈ p.options then some (p.setSecond v) else none
  | .fetchFirst => some (match p.repo with
    | none => p
    | some r => p.load r true)
  | .fetchSecond => some p
  | .answer i r list => match p.waiting[i]? with
    | some (r', _) => if r = r' then
        some (StartPage.populate { p with waiting := p.waiting.eraseIdx i, branches := setKey r list p.branches, busy := false } list) else none
    | none => none
  | .fail i => if i < p.waiting.length then some { p with waiting := p.waiting.eraseIdx i } else none

/-- `web/static/root.js:147-171`: the query opened by the button "Compare". -/
def StartPage.compare (p : StartPage) : Option Bytes := rootQuery (jsText p.repo) (jsText p.first) (jsText p.second)

/-- `web/static/root.js:66`: the query of a request to `/branches`. -/
def branchQuery (repo : Str) (fetch : Bool) : Bytes :=
  navigate (str% "repo=" ++ repo ++ str% "&fetch=" ++ (if fetch then str% "true" else str% "false"))

end Swc
