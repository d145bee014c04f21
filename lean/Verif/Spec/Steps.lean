/-
Independent specification of the steps of a form, and of users who wait.
-/
import Verif.Spec.StartPage
import Verif.Spec.Scripts
import Verif.Model.Steps

namespace Swc.Spec

open Swc

/-- What is in a form: `none` where a step begins, `some` for the classes of a button. -/
def formParts (ts : List Token) : List (Option (List Str)) :=
  ts.filterMap fun
    | .start name attrs =>
      if name = str% "fieldset" then some none
      else if name = str% "input" ∧ attrs.lookup (str% "type") = some (str% "button") then some (some (classTokens ((attrs.lookup (str% "class")).getD [])))
      else none
    | _ => none

/-- The classes of the buttons of each step. -/
def stepsOf : List (Option (List Str)) → List (List Str)
  | [] => []
  | none :: l => ((l.takeWhile Option.isSome).filterMap id).flatten :: stepsOf l
  | some _ :: l => stepsOf l

/-- The steps of the form of a page. -/
def formSteps (ts : List Token) : List (List Str) := stepsOf (formParts ts)

/-- The form after some clicks. -/
inductive Clicked (buttons : List (List Str)) : List FormClick → FormState → Prop
  | start : Clicked buttons [] .start
  | click {l f c f'} (h : Clicked buttons l f) (hc : f.click buttons c = some f') : Clicked buttons (l ++ [c]) f'

/-- The form shows one step, and the progress bar marks the steps up to this one. -/
structure AtStep (f : FormState) (k : Nat) : Prop where
  shown : ∀ j, f.shown j = true ↔ j = k
  active : ∀ j, f.active j = true ↔ j ≤ k

/-- An event that comes from the user. -/
def fromUser : PageEvent → Bool
  | .answer .. => false
  | .fail _ => false
  | _ => true

/-- A visit by a user who does nothing while the page shows that it is waiting. -/
inductive Waits (served : List Str) (store : Str → Option Str) : List PageEvent → StartPage → Prop
  | loaded : Waits served store [] (.loaded store)
  | step {tr p e p'} (h : Waits served store tr p) (hu : fromUser e = true → p.busy = false) (hs : p.step served e = some p') : Waits served store (tr ++ [e]) p'

end Swc.Spec
