/-
Independent specification of the parameters of a weight function, read off the source of its two versions.
-/
import Verif.Spec.Runtime
import Verif.Spec.Compare
import Verif.Spec.PalletFile
import Verif.Model.ParsePallet

namespace Swc.Spec

open Swc

/-- Smallest annotated value of the component `x`: over both versions of the function, or 0 if neither annotates it. -/
def lowOf (cc : CharClass) (f g : ImplFn) (x : Str) : Nat :=
  match lastAnnotation cc x f.attrs, lastAnnotation cc x g.attrs with
  | none, none => 0
  | some r, none => r.min
  | none, some r => r.min
  | some r, some s => min r.min s.min

/-- Largest annotated value of the component `x`: over both versions of the function, or 100 if neither annotates it. -/
def highOf (cc : CharClass) (f g : ImplFn) (x : Str) : Nat :=
  match lastAnnotation cc x f.attrs, lastAnnotation cc x g.attrs with
  | none, none => 100
  | some r, none => r.max
  | none, some r => r.max
  | some r, some s => max r.max s.max

/-- A runtime with RocksDB storage costs that calls the function with parameters in their ranges. -/
def Admissible (cc : CharClass) (f g : ImplFn) (rt : Runtime) : Prop :=
  rt.read = 25000000 ∧ rt.write = 100000000 ∧ ∀ x, lowOf cc f g x ≤ rt.comp x ∧ rt.comp x ≤ highOf cc f g x

/-- The runtime with the highest parameters. -/
def topRuntime (cc : CharClass) (f g : ImplFn) : Runtime := ⟨highOf cc f g, 25000000, 100000000⟩

/-- `u64::MAX`. -/
def u64Max : Nat := 2 ^ 64 - 1

/-- What the runtime charges for the body `e`, in one dimension. -/
def Charges (rt : Runtime) (d : Dimension) (e : Expr) (n : Nat) : Prop := ∃ w, weight (saturating u64Max) rt e = some w ∧ coord d w = n

/-- `f` is a function called `name` in an eligible `impl` block of one of the files, whose name relative to the repository is `p`. -/
def Source (env : Env) (fs : Fs) (repo : Path) (files : List Path) (p name : Str) (f : ImplFn) : Prop :=
  ∃ file ∈ files, PathStripping.repoRelative.strip repo file = .ok p ∧
    ∃ content items ty its, fs file = .ok content ∧ env.syn content = .ok items ∧ Item.impl ty its ∈ items ∧ Eligible ty ∧
      f ∈ functions its ∧ f.name = name

/-- The report `r` is the worst case of the two bodies in the dimension `d`: no admissible runtime sees a larger change, and one is charged
the two values reported. -/
def WorstOf (cc : CharClass) (f g : ImplFn) (d : Dimension) (eo en : Expr) (r : TermChange) : Prop :=
  (∀ rt, Admissible cc f g rt → ∃ o n, Charges rt d eo o ∧ Charges rt d en n ∧ rank (percent o n) ≤ rank r.percent) ∧
  (∃ rt o n, Admissible cc f g rt ∧ Charges rt d eo o ∧ Charges rt d en n ∧ r.oldV = some o ∧ r.newV = some n ∧ r.percent = percent o n)

end Swc.Spec
