/-
Model of `web/static/darkmode.js`: the switch between light and dark pages.

Elements are the start tags of a page (`Spec/Html`), as far as the script looks at them.  Class lists are texts (`className`); selectors, `classList` and regular
expressions work on them by the DOM standard and ECMAScript.  In pages without a document type (all but the result page) selectors ignore the case of ASCII
letters (`quirks`).  Local storage keeps one text.

Simplifications: a page has one `body` element; scripts do not add elements between the load of the page and the use of the switch (what `DataTables` adds has
none of the classes).
-/
import Verif.Spec.Html
import Verif.Model.Options

namespace Swc

open Spec

/-- An element: name of its tag, identifier, classes. -/
structure Element where
  tag : Str
  id : Str
  className : Str
  deriving DecidableEq

/-- The elements of a page. -/
def pageElements (ts : List Token) : List Element :=
  ts.filterMap fun
    | .start name attrs => some ⟨name, (attrs.lookup (str% "id")).getD [], (attrs.lookup (str% "class")).getD []⟩
    | _ => none

/-- DOM standard: the tokens of a text, separated by white space; `acc` is the token being read. -/
def tokensFrom (acc : Str) : Str → List Str
  | [] => if acc = [] then [] else [acc]
  | c :: s => if isBlank c then (if acc = [] then tokensFrom [] s else acc :: tokensFrom [] s) else tokensFrom (acc ++ [c]) s

def classTokens (s : Str) : List Str := tokensFrom [] s

/-- DOM standard: the serialisation of a set of tokens. -/
def joinTokens : List Str → Str
  | [] => []
  | [t] => t
  | t :: u :: l => t ++ str% " " ++ joinTokens (u :: l)

/-- Without duplicates, the first ones stay. -/
def orderedSet (l : List Str) : List Str := l.foldl (fun acc t => if t ∈ acc then acc else acc ++ [t]) []

/-- `classList.add`. -/
def classAdd (t s : Str) : Str := joinTokens (orderedSet (classTokens s ++ [t]))

/-- `classList.remove`. -/
def classRemove (t s : Str) : Str := joinTokens ((orderedSet (classTokens s)).filter (· ≠ t))

/-- `querySelectorAll('.t')` finds the element. -/
def matchesClass (quirks : Bool) (t : Str) (e : Element) : Bool :=
  (classTokens e.className).any fun u => u = t || (quirks && asciiLower u = asciiLower t)

/-- `s.replace(/p/g, r)` for a plain text `p`; the next `skip` characters belong to an occurrence. -/
def replaceFrom (p r : Str) : Nat → Str → Str
  | _, [] => []
  | skip + 1, _ :: s => replaceFrom p r skip s
  | 0, c :: s => if p.isPrefixOf (c :: s) then r ++ replaceFrom p r (p.length - 1) s else c :: replaceFrom p r 0 s

/-- `document.querySelectorAll('.p').forEach((element) => { element.className = element.className.replace(/p/g, r); })` -/
def exchange (quirks : Bool) (p r : Str) (l : List Element) : List Element :=
  l.map fun e => if matchesClass quirks p e then { e with className := replaceFrom p r 0 e.className } else e

/-- `document.body.classList.add(t)` -/
def addToBody (t : Str) (l : List Element) : List Element :=
  l.map fun e => if e.tag = str% "body" then { e with className := classAdd t e.className } else e

/-- A page with a switch, and local storage. -/
structure ThemedPage where
  elements : List Element
  checked : Bool
  stored : Option Str
  deriving DecidableEq

/-- `web/static/darkmode.js:17-40` `darkMode`. -/
def ThemedPage.darkMode (quirks : Bool) (p : ThemedPage) : ThemedPage :=
  let l := addToBody (str% "bg-dark") (exchange quirks (str% "bg-light") (str% "bg-dark") p.elements)
  let l := addToBody (str% "text-light") (exchange quirks (str% "text-dark") (str% "text-light") l)
  let l := l.map fun e => if e.tag = str% "table" then { e with className := classAdd (str% "table-dark") e.className } else e
  ⟨l, true, some (str% "dark")⟩

/-- `web/static/darkmode.js:46-69` `lightMode`. -/
def ThemedPage.lightMode (quirks : Bool) (p : ThemedPage) : ThemedPage :=
  let l := addToBody (str% "bg-light") (exchange quirks (str% "bg-dark") (str% "bg-light") p.elements)
  let l := addToBody (str% "text-dark") (exchange quirks (str% "text-light") (str% "text-dark") l)
  let l := l.map fun e =>
    if e.tag = str% "table" then
      if str% "table-dark" ∈ classTokens e.className then { e with className := classRemove (str% "table-dark") e.className } else e
    else e
  ⟨l, false, some (str% "light")⟩

/-- `web/static/darkmode.js:75-81` `onToggleMode`. -/
def ThemedPage.onToggle (quirks : Bool) (p : ThemedPage) : ThemedPage := if p.checked then p.darkMode quirks else p.lightMode quirks

/-- `web/static/darkmode.js:95-109` `setup`, with `getSystemDefaultTheme` (`:87-93`).  `restored`: the state of the switch before the script runs (not checked,
unless the browser restores forms). -/
def themeSetup (quirks : Bool) (elements : List Element) (restored : Bool) (stored : Option Str) (prefersDark : Bool) : ThemedPage :=
  let settings := stored.getD (if prefersDark then str% "dark" else str% "light")
  (ThemedPage.mk elements (restored || settings = str% "dark") stored).onToggle quirks

/-- The browser: what is in local storage and the page that is open, with the state of the switch if it has one. -/
structure ThemeBrowser where
  stored : Option Str
  elements : List Element
  quirks : Bool
  switch : Option Bool
  deriving DecidableEq

/-- What happens: a page is opened; the switch is clicked. -/
inductive ThemeEvent where
  | visit (elements : List Element) (quirks restored prefersDark : Bool)
  | click

/-- `web/static/darkmode.js:6-10` and the handlers.  A click turns the switch around before the handler runs. -/
def ThemeBrowser.step (b : ThemeBrowser) : ThemeEvent → ThemeBrowser
  | .visit l quirks restored prefersDark =>
    if l.any (·.id = str% "lightSwitch") then
      let p := themeSetup quirks l restored b.stored prefersDark
      ⟨p.stored, p.elements, quirks, some p.checked⟩
    else ⟨b.stored, l, quirks, none⟩
  | .click =>
    match b.switch with
    | none => b
    | some c =>
      let p := (ThemedPage.mk b.elements (!c) b.stored).onToggle b.quirks
      ⟨p.stored, p.elements, b.quirks, some p.checked⟩

end Swc
