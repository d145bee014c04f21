/-
Independent specification of light and dark pages.
-/
import Verif.Model.Theme

namespace Swc.Spec

open Swc

inductive Theme where
  | light
  | dark
  deriving DecidableEq

def Theme.other : Theme → Theme
  | .light => .dark
  | .dark => .light

/-- The class for the background. -/
def Theme.bg : Theme → Str
  | .light => str% "bg-light"
  | .dark => str% "bg-dark"

/-- The class for text: light on dark, dark on light. -/
def Theme.text : Theme → Str
  | .light => str% "text-dark"
  | .dark => str% "text-light"

/-- The text in local storage. -/
def Theme.word : Theme → Str
  | .light => str% "light"
  | .dark => str% "dark"

/-- A class is one of the words of the class attribute. -/
def HasClass (e : Element) (t : Str) : Prop := t ≠ [] ∧ (∀ c ∈ t, isBlank c = false) ∧
  ∃ u v, e.className = u ++ t ++ v ∧ (∀ c, u.getLast? = some c → isBlank c = true) ∧ (∀ c, v.head? = some c → isBlank c = true)

/-- A class that has nothing to do with themes. -/
def Neutral (t : Str) : Prop :=
  ¬ str% "bg-light" <:+: t ∧ ¬ str% "bg-dark" <:+: t ∧ ¬ str% "text-dark" <:+: t ∧ ¬ str% "text-light" <:+: t ∧ t ≠ str% "table-dark"

/-- What becomes of an element `e` of a page in a theme: what has a background or a colour for text has those of the theme, and so has the body; tables are dark if
the theme is; all else is as it was. -/
structure Themed (T : Theme) (e e' : Element) : Prop where
  tag : e'.tag = e.tag
  id : e'.id = e.id
  bg : HasClass e' T.bg ↔ HasClass e T.bg ∨ HasClass e T.other.bg ∨ e.tag = str% "body"
  noBg : ¬ HasClass e' T.other.bg
  text : HasClass e' T.text ↔ HasClass e T.text ∨ HasClass e T.other.text ∨ e.tag = str% "body"
  noText : ¬ HasClass e' T.other.text
  table : HasClass e' (str% "table-dark") ↔ if e.tag = str% "table" then T = .dark else HasClass e (str% "table-dark")
  rest : ∀ t, Neutral t → (HasClass e' t ↔ HasClass e t)

/-- The theme that the user has chosen, as far as they have: the first page with a switch takes that of the system, clicks turn it around. -/
def chosenTheme : Option Theme → Bool → List ThemeEvent → Option Theme
  | T, _, [] => T
  | T, _, .visit l _ _ prefersDark :: es =>
    if ∃ e ∈ l, e.id = str% "lightSwitch" then chosenTheme (T.or (some (if prefersDark then .dark else .light))) true es else chosenTheme T false es
  | T, true, .click :: es => chosenTheme (T.map Theme.other) true es
  | T, false, .click :: es => chosenTheme T false es

/-- The page that is open, as it came. -/
def lastPage : List ThemeEvent → List Element → List Element
  | [], l => l
  | .visit l _ _ _ :: es, _ => lastPage es l
  | .click :: es, l => lastPage es l

/-- The browser does not restore the switch to a state that is not the stored one. -/
def NotRestored : ThemeEvent → Prop
  | .visit _ _ restored _ => restored = false
  | .click => True

end Swc.Spec
