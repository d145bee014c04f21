/-
What the scripts in `web/static` look for in the pages: the selectors in their text, read by eye.
-/
import Verif.Model.ResultPage
import Verif.Model.Theme

namespace Swc

/-- The files in `web/static`. -/
def staticFiles : List Str :=
  [str% "common.js", str% "darkmode.js", str% "dummy-mrs.json", str% "loading_anim.css", str% "merge_requests.css", str% "merge_requests.js", str% "root.css",
    str% "root.js", str% "table.css", str% "table.js"]

/-- The identifiers in `web/static/table.js` with the elements that the script takes them for: the table (`:31`) and the controls (`:64-91`). -/
def tableScriptIds : List (Str × Str) :=
  (str% "sort_me", str% "table") ::
    resultControls.map fun c => (c.1 ++ c.2, if c.1 = str% "select_" then str% "select" else str% "input")

/-- The identifiers in `web/static/root.js`: lists (`:24-25`, `:33`, `:37`, `:45-58`, `:148`, `:153-154`, `:169`, `:178`, `:186`), the steps (`:89`, `:115`),
the button "Compare" (`:147`), the summary (`:172`, `:182`, `:190`) and the button "fetch" (`:195`). -/
def startScriptIds : List (Str × Str) :=
  [(str% "repoSelect", str% "select"), (str% "firstSelect", str% "select"), (str% "secondSelect", str% "select"), (str% "progressbar", str% "ul"),
    (str% "bthPost", str% "input"), (str% "selectedRepo", str% "input"), (str% "selectedFirst", str% "input"), (str% "selectedSecond", str% "input")]

/-- The identifiers in `web/static/merge_requests.js`: the list (`:32`, `:61`), the table (`:45`) and the count (`:124`). -/
def mergeScriptIds : List (Str × Str) :=
  [(str% "select_repo", str% "select"), (str% "mrTable", str% "table"), (str% "highlighted", str% "var")]

/-- The identifier in `web/static/darkmode.js:7`. -/
def themeScriptIds : List (Str × Str) := [(str% "lightSwitch", str% "input")]

/-- `web/static/common.js:1-10`, `web/static/root.js:11-20` `loading`: the elements that are shown and hidden, `div.spanner` and `div.overlay`. -/
def loadingClasses : List Str := [str% "spanner", str% "overlay"]

end Swc
