/-
Independent specification of what a pallet weight file contains.
-/
import Verif.Model.ParsePallet
import Verif.Spec.Decimal

namespace Swc.Spec

open Swc

/-- The blocks `impl … for ()`, `impl … for WeightInfo` and `impl … for SubstrateWeight` (generic arguments are not looked at). -/
def Eligible (ty : Ty) : Prop :=
  ty = .tuple 0 ∨ ty = .path false [str% "WeightInfo"] ∨ ty = .path false [str% "SubstrateWeight"]

/-- The return type is a path whose last segment ends with `Weight`. -/
def ReturnsWeight (f : ImplFn) : Prop :=
  ∃ (c : Bool) (segs : List Str) (last pre : Str), f.output = some (.path c segs) ∧ segs.getLast? = some last ∧ last = pre ++ str% "Weight"

/-- The functions of an `impl` block, in order. -/
def functions : List ImplItem → List ImplFn
  | [] => []
  | .fn f :: l => f :: functions l
  | .other :: l => functions l

/-- `ext` is what is to be extracted from the function. -/
def Extracted (cc : CharClass) (pallet : Str) (f : ImplFn) (ext : ChromaticExtrinsic) : Prop :=
  ReturnsWeight f ∧ ext.name = f.name ∧ ext.pallet = pallet
    ∧ (∃ e, f.stmts = [.expr e] ∧ parseBody e = .ok ext.term)
    ∧ parseComponentAttrs cc f.attrs = .ok ext.compRanges

/-- The item is an eligible `impl` block with at least one function, all of which can be extracted; `exts` is the result. -/
def Implements (cc : CharClass) (pallet : Str) (item : Item) (exts : List ChromaticExtrinsic) : Prop :=
  ∃ ty items, item = .impl ty items ∧ Eligible ty ∧ functions items ≠ [] ∧ List.Forall₂ (Extracted cc pallet) (functions items) exts

/-- `s` contains the annotation `` `name` … `[lo, hi]` ``, after `pre`. -/
def AnnotationAt (cc : CharClass) (pre s name lo hi : Str) : Prop :=
  ∃ mid sp post, s = pre ++ str% "`" ++ name ++ str% "`" ++ mid ++ str% "`[" ++ lo ++ str% "," ++ sp ++ hi ++ str% "]`" ++ post
    ∧ (name ≠ [] ∧ ∀ c ∈ name, cc.word c = true) ∧ (∀ c ∈ mid, cc.word c = true ∨ cc.space c = true)
    ∧ (lo ≠ [] ∧ ∀ c ∈ lo, cc.digit c = true ∨ c = '_') ∧ (∀ c ∈ sp, cc.space c = true)
    ∧ (hi ≠ [] ∧ ∀ c ∈ hi, cc.digit c = true ∨ c = '_')

/-- Value of a number written with ASCII digits and underscores. -/
def underscored (s : Str) : Option Nat := readNat (s.filter (· ≠ '_'))

/-- What the attributes annotate for the component called `x` up to underscores: the last annotation counts. -/
def lastAnnotation (cc : CharClass) (x : Str) : List Attr → Option ComponentRange
  | [] => none
  | a :: l => match lastAnnotation cc x l with
    | some r => some r
    | none => match parseComponentAttr cc a with
      | .ok (some (name, r)) => if name.filter (· ≠ '_') = x then some r else none
      | _ => none

end Swc.Spec
