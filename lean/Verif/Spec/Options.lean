/-
Independent specification of option names: what it means for a parser to know exactly a list of names.
-/
import Verif.Model.Basic

namespace Swc.Spec

open Swc

/-- The parser `parse` accepts exactly the listed names, each for its value; all else is refused with an error (no panic). -/
def Knows {E : Type} (parse : Str → Res E) (names : List (Str × E)) : Prop :=
  ∀ s, (∀ v, parse s = .ok v ↔ (s, v) ∈ names) ∧ ((∀ v, (s, v) ∉ names) → ∃ msg, parse s = .err msg)

/-- Every value is listed exactly once, and no name stands for two values. -/
def Complete {E : Type} (names : List (Str × E)) : Prop :=
  (∀ v : E, v ∈ names.map (·.2)) ∧ (names.map (·.1)).Nodup ∧ (names.map (·.2)).Nodup

/-- Equal up to the case of ASCII letters. -/
inductive SameLetters : Str → Str → Prop
  | nil : SameLetters [] []
  | cons {a b s t} : a.toLower = b.toLower → SameLetters s t → SameLetters (a :: s) (b :: t)

end Swc.Spec
