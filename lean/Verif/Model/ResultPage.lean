/-
Model of `web/static/table.js`: what the browser makes of the result page.  The page is read by the HTML standard (`Spec/Html`), the table is managed by
`DataTables` 1.12.1, which is modelled as documented: the key of a cell is its attribute `data-order`, otherwise its text; a column whose keys are all numbers is
sorted by number, the others by text; sorting is stable; a click on the head of the column that determines the order turns it around, a click on another one
sorts by that column, ascending.

Simplifications: of the numbers only whole ones in decimal notation are known (the keys of the pages are); the order of texts is arbitrary (`txt`); the search
box, sorting by several columns with the shift key and the selection by mouse are left out.
-/
import Verif.Model.Query
import Verif.Spec.Html
import Mathlib.Data.List.Sort

namespace Swc

open Spec

/-! ### The table -/

/-- A row as read from the page: attributes and cells. -/
abbrev DomRow := List (Str × Str) × List Cell

/-- Directions of sorting. -/
inductive Dir where
  | asc
  | desc
  deriving DecidableEq

/-- The key of the `k`-th cell. -/
def orderText (k : Nat) (r : DomRow) : Str :=
  match r.2[k]? with
  | some c => (c.attrs.lookup (str% "data-order")).getD c.text
  | none => []

/-- Conversion of a whole number to a number of JavaScript. -/
def jsNumber (s : Str) : Option F64 := (readInt s).map fun z => F64.rnd z

/-- The key as a number (only used if it is one). -/
def orderNumber (k : Nat) (r : DomRow) : F64 := (jsNumber (orderText k r)).getD (.fin 0)

/-- Whether the `k`-th column has numbers only. -/
def numericColumn (k : Nat) (rows : List DomRow) : Bool := rows.all fun r => (jsNumber (orderText k r)).isSome

/-- Whether the first row may stay before the second one.  (`txt s t`: `s` is smaller.) -/
def mayPrecede (txt : Str → Str → Bool) (numeric : Bool) (k : Nat) (d : Dir) (a b : DomRow) : Bool :=
  match d with
  | .asc => !(if numeric then F64.lt (orderNumber k b) (orderNumber k a) else txt (orderText k b) (orderText k a))
  | .desc => !(if numeric then F64.lt (orderNumber k a) (orderNumber k b) else txt (orderText k a) (orderText k b))

/-- Sorting by the `k`-th column. -/
def sortRows (txt : Str → Str → Bool) (k : Nat) (d : Dir) (rows : List DomRow) : List DomRow :=
  rows.insertionSort fun a b => mayPrecede txt (numericColumn k rows) k d a b = true

/-- The table on the screen: rows from top to bottom, column and direction of the order. -/
structure DataTable where
  rows : List DomRow
  column : Nat
  dir : Dir
  deriving DecidableEq

/-- `web/static/table.js:31-47`: the table when the page is ready, `aaSorting: [[4, "desc"]]`. -/
def DataTable.load (txt : Str → Str → Bool) (rows : List DomRow) : DataTable := ⟨sortRows txt 4 .desc rows, 4, .desc⟩

/-- A click on the head of the `k`-th column. -/
def DataTable.click (txt : Str → Str → Bool) (t : DataTable) (k : Nat) : DataTable :=
  let d := if t.column = k then (match t.dir with | .asc => .desc | .desc => .asc) else .asc
  ⟨sortRows txt k d t.rows, k, d⟩

/-! ### The row in the address -/

/-- URL standard, "fragment percent-encode set": control characters, everything above `~`, space, `"`, `<`, `>` and the backtick. -/
def fragmentEscaped (c : Char) : Bool := c.toNat ≤ 0x20 || 0x7E < c.toNat || c == '"' || c == '<' || c == '>' || c == '`'

/-- `location.hash` for an address that ends with `#s`: tabs and line ends are dropped, some characters are encoded; empty if nothing remains. -/
def locationHash (s : Str) : Str :=
  let t := (s.filter fun c => c ≠ '\t' ∧ c ≠ '\n' ∧ c ≠ '\r').flatMap fun c =>
    if fragmentEscaped c then ((utf8 [c]).flatMap pct).map (fun b => Char.ofNat b.toNat) else [c]
  if t = [] then [] else '#' :: t

/-- `s.replace('#', '')`: the first one only. -/
def dropHash : Str → Str
  | [] => []
  | c :: s => if c = '#' then s else c :: dropHash s

/-- `web/static/table.js:49-61`: the row that is selected when the page is ready.  `DataTables` looks rows up by identifier; of several rows with the same one it
finds the last.  (Otherwise it tries the anchor as a CSS selector, which finds no row: the identifiers contain a dot.) -/
def selectedRow (rows : List DomRow) (hash : Str) : Option DomRow :=
  let anchor := dropHash hash
  if anchor = [] then none else rows.reverse.find? fun r => r.1.lookup (str% "id") = some anchor

/-! ### The controls -/

/-- The three loops of `web/static/table.js:65-91`: prefix of the identifier of the control and name of the argument. -/
def resultControls : List (Str × Str) :=
  [str% "unit", str% "method", str% "repo"].map (fun n => (str% "select_", n)) ++
  [str% "threshold", str% "path_pattern", str% "old", str% "new", str% "pallet", str% "extrinsic"].map (fun n => (str% "input_", n)) ++
  [str% "ignore_errors", str% "git_pull"].map (fun n => (str% "checkbox_", n))

/-- What the user does with a control: another text or choice, or another state of a box (`$(this).is(":checked")`, as text). -/
inductive Setting where
  | value (v : Str)
  | box (checked : Bool)
  deriving DecidableEq

/-- The value that the handler passes on: `$(this).val()` for lists and inputs, `$(this).is(":checked")` for boxes. -/
def Setting.passed (kind : Str) : Setting → Str
  | .value v => if kind = str% "checkbox_" then str% "false" else v
  | .box b => if kind = str% "checkbox_" then (if b then str% "true" else str% "false") else str% "on"

/-- A control of the page with the query `q` is changed: the query of the page that is opened by its handler, if any. -/
def changeControl (u : Utf8Lossy) (q : Bytes) (id : Str) (x : Setting) : Option Bytes :=
  match resultControls.find? fun c => c.1 ++ c.2 = id with
  | some c => urlRedirect u q c.2 (x.passed c.1)
  | none => none

end Swc
