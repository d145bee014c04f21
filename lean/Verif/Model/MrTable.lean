/-
Model of the order in which the list of merge requests is shown: `web/static/merge_requests.js:45-57` creates the table with `aaSorting: [[ 4, "desc" ]]`, and every
`table.row.add(…).draw()` (`:80-86`) sorts its rows again by their last cell, `last_push.toLocaleDateString()`.

`DataTables` 1.12.1 is modelled as documented: a column of dates in the style of ISO 8601 is sorted by date, a column of other dates by text; sorting is stable.  How
a time is written depends on the browser (`day`), and so does the order of the texts (`less s t`: `s` is smaller); `jsLess` is the order of a column of texts.
-/
import Verif.Model.MergeRequests
import Mathlib.Data.List.Sort

namespace Swc

/-- `web/static/merge_requests.js:76-86`: the rows that are added, each with its merge request, in the order in which they are added. -/
def mrAdded (owner : Str) (data : List MergeRequest) : List (MrRow × MergeRequest) :=
  (mrLoop owner (newestFirst data)).1.zip (newestFirst data)

/-- Whether a row may stay above another one: its last cell is not smaller. -/
def mrMayPrecede (less : Str → Str → Bool) (day : Int → Str) (a b : MrRow × MergeRequest) : Bool := !less (day a.2.updated) (day b.2.updated)

/-- `table.row.add(…).draw()`. -/
def mrAdd (less : Str → Str → Bool) (day : Int → Str) (table : List (MrRow × MergeRequest)) (r : MrRow × MergeRequest) : List (MrRow × MergeRequest) :=
  (table ++ [r]).insertionSort fun a b => mrMayPrecede less day a b = true

/-- `web/static/merge_requests.js:76-123`: the table on the screen, from top to bottom. -/
def mrTable (less : Str → Str → Bool) (day : Int → Str) (owner : Str) (data : List MergeRequest) : List (MrRow × MergeRequest) :=
  (mrAdded owner data).foldl (mrAdd less day) []

/-- The units of UTF-16 of a character. -/
def charUnits (c : Char) : List Nat :=
  if c.toNat < 0x10000 then [c.toNat] else [0xD800 + (c.toNat - 0x10000) / 0x400, 0xDC00 + (c.toNat - 0x10000) % 0x400]

/-- `a < b` for two lists of units. -/
def unitsLess : List Nat → List Nat → Bool
  | _, [] => false
  | [], _ :: _ => true
  | a :: l, b :: r => a < b || (a == b && unitsLess l r)

/-- The order of `DataTables` for a column of texts: `a.toLowerCase() < b.toLowerCase()`, with `toLowerCase` for ASCII letters. -/
def jsLess (a b : Str) : Bool := unitsLess ((asciiLower a).flatMap charUnits) ((asciiLower b).flatMap charUnits)

end Swc
