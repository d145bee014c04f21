/-
Independent specification for the comparison of two sets of calls: which calls are compared, and with what.
-/
import Verif.Spec.Compare

namespace Swc.Spec

open Swc

/-- The call with its weight restricted to one dimension. -/
def inDim (d : Dimension) (e : ChromaticExtrinsic) : SimpleExtrinsic :=
  { name := e.name, pallet := e.pallet, term := project d e.term, compRanges := e.compRanges }

/-- The call `x` is named `e` and belongs to the file `p`. -/
def Named (p e : Str) (x : ChromaticExtrinsic) : Prop := x.pallet = p ∧ x.name = e

/-- `o` is the first call of the list with the given file and name, if there is one. -/
def FirstOf (l : List ChromaticExtrinsic) (p e : Str) : Option ChromaticExtrinsic → Prop
  | none => ∀ x ∈ l, ¬ Named p e x
  | some x => Named p e x ∧ ∃ l1 l2, l = l1 ++ x :: l2 ∧ ∀ y ∈ l1, ¬ Named p e y

/-- The user-supplied pattern, if there is one, matches. -/
def Passes (rx : RegexEngine) (pattern : Option Str) (s : Str) : Prop :=
  ∀ q, pattern = some q → ∃ m, rx.compile q = some m ∧ m s = some true

/-- The call passes the file and name filters. -/
def Selected (rx : RegexEngine) (f : FilterParams) (p e : Str) : Prop := Passes rx f.pallet p ∧ Passes rx f.extrinsic e

/-- The file and name occur in one of the two versions. -/
def Present (olds news : List ChromaticExtrinsic) (p e : Str) : Prop := ∃ x, (x ∈ olds ∨ x ∈ news) ∧ Named p e x

/-- Strictly before in the order by file, then by name. -/
def Before (a b : Str × Str) : Prop := a.1 < b.1 ∨ (a.1 = b.1 ∧ a.2 < b.2)

/-- No call occurs twice in the list. -/
def NoDup (l : List ChromaticExtrinsic) : Prop := (l.map fun e => (e.pallet, e.name)).Nodup

end Swc.Spec
