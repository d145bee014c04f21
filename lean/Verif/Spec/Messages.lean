/-
Independent specification of the texts that accompany an entry of the report: why a comparison is refused, and what a warning is about.
-/
import Verif.Spec.Compare

namespace Swc.Spec

open Swc

/-- Text for a call with too many components. -/
def tooManyText (p e : Str) (n : Nat) : Str :=
  str% "Too many components to compare: " ++ p ++ str% "::" ++ e ++ str% " has " ++ natToStr n ++ str% " components - limit is 16"

/-- Text for a component without a range. -/
def noRangeText (p e x : Str) : Str := str% "No range for component " ++ x ++ str% " of call " ++ p ++ str% "::" ++ e ++ str% " - use Guess instead!"

/-- Text for a component with two ranges. -/
def twoRangesText (p e x : Str) : Str :=
  str% "Component " ++ x ++ str% " of call " ++ p ++ str% "::" ++ e ++ str% " has different ranges in the old and new version - use Guess instead!"

/-- Text for a call with too many reads. -/
def readsText (p e : Str) (n : Nat) : Str := str% "Call has " ++ natToStr n ++ str% " READs: " ++ p ++ str% "::" ++ e

/-- Text for a call with too many writes. -/
def writesText (p e : Str) (n : Nat) : Str := str% "Call has " ++ natToStr n ++ str% " WRITEs: " ++ p ++ str% "::" ++ e

/-- There are exactly `n` names with this property. -/
def Count (n : Nat) (P : Str → Prop) : Prop := ∃ l : List Str, l.Nodup ∧ l.length = n ∧ ∀ x, x ∈ l ↔ P x

/-- The text says why two versions of the call `p::e` with these components and annotated ranges are not compared.  Too many components come
first; else it is about one of the components that an exact method cannot deal with. -/
def Reason (m : CompareMethod) (p e : Str) (param : Str → Prop) (range : Str → ComponentRange → Prop) (msg : Str) : Prop :=
  (∃ n, 16 < n ∧ Count n param ∧ msg = tooManyText p e n) ∨
  (¬ MoreThan 16 param ∧ Exact m ∧ ∃ x, param x ∧
    (((∀ r, ¬ range x r) ∧ msg = noRangeText p e x) ∨ ((∃ r r', range x r ∧ range x r' ∧ r ≠ r') ∧ msg = twoRangesText p e x)))

/-- The text names the largest of the numbers of reads and writes of the call `p::e` (writes, if there are as many). -/
def Warns (p e : Str) (reads writes : Nat → Prop) (msg : Str) : Prop :=
  ∃ n, (∀ k, reads k ∨ writes k → k ≤ n) ∧
    ((writes n ∧ msg = writesText p e n) ∨ (reads n ∧ ¬ writes n ∧ msg = readsText p e n))

end Swc.Spec
