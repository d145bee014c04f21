/-
Model of the form of the start page, `web/static/root.js:80-137`: its steps (`fieldset` elements, `root.stpl:39-92`), the buttons that lead from one to the next,
and the marks of the progress bar (`root.stpl:32-37`).  Simplified: a click comes after the animation of the one before (600 ms) is over.
-/
import Verif.Model.StartPage

namespace Swc

/-- Which steps are displayed and which marks of the progress bar are active. -/
structure FormState where
  shown : Nat → Bool
  active : Nat → Bool

/-- The page once it is loaded: `web/static/root.css:56-58` hides all steps but the first; the first mark is active (`root.stpl:33`). -/
def FormState.start : FormState := ⟨fun i => i == 0, fun i => i == 0⟩

/-- `web/static/root.js:83-107`: the button of class `next` in the step `i` of `n`.  `next_fs` is empty for the last step; then `index` is -1 and `eq(-1)` takes the
last mark. -/
def FormState.next (n : Nat) (f : FormState) (i : Nat) : FormState :=
  if i + 1 < n then
    ⟨fun j => if j = i + 1 then true else if j = i then false else f.shown j, fun j => if j = i + 1 then true else f.active j⟩
  else ⟨fun j => if j = i then false else f.shown j, fun j => if j = n - 1 then true else f.active j⟩

/-- `web/static/root.js:109-133`: the button of class `previous` in the step `i`.  There is nothing before the first step. -/
def FormState.previous (f : FormState) (i : Nat) : FormState :=
  ⟨fun j => if 0 < i ∧ j = i - 1 then true else if j = i then false else f.shown j, fun j => if j = i then false else f.active j⟩

/-- Clicks on buttons, with the step that the button is in. -/
inductive FormClick where
  | next (i : Nat)
  | previous (i : Nat)
  deriving DecidableEq

/-- What a click does; `none` if there is nothing to click on.  `buttons` has the classes of the buttons of each step. -/
def FormState.click (buttons : List (List Str)) (f : FormState) : FormClick → Option FormState
  | .next i => if f.shown i = true ∧ str% "next" ∈ buttons.getD i [] then some (f.next buttons.length i) else none
  | .previous i => if f.shown i = true ∧ str% "previous" ∈ buttons.getD i [] then some (f.previous i) else none

end Swc
