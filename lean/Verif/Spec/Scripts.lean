/-
Independent specification of what a script finds in a page.
-/
import Verif.Spec.Html
import Verif.Spec.Theme

namespace Swc.Spec

open Swc

/-- The names of the elements with an identifier, in the order of the page. -/
def namedBy (ts : List Token) (id : Str) : List Str :=
  ts.filterMap fun
    | .start name attrs => if attrs.lookup (str% "id") = some id then some name else none
    | _ => none

/-- The addresses of the scripts of a page. -/
def scriptsOf (ts : List Token) : List Str :=
  ts.filterMap fun
    | .start name attrs => if name = str% "script" then attrs.lookup (str% "src") else none
    | _ => none

/-- The classes of the `div` elements of a page. -/
def divClasses (ts : List Token) : List Str :=
  ts.filterMap fun
    | .start name attrs => if name = str% "div" then attrs.lookup (str% "class") else none
    | _ => none

/-- How many `div` elements have a class. -/
def divsWith (ts : List Token) (cls : Str) : Nat := ((divClasses ts).filter fun s => cls ∈ classTokens s).length

/-- The page belongs to the script: it loads the script, which finds one element, of the right kind, for each of its identifiers. -/
structure Belongs (ts : List Token) (file : Str) (wanted : List (Str × Str)) : Prop where
  loaded : str% "/static/" ++ file ∈ scriptsOf ts
  found : ∀ p ∈ wanted, namedBy ts p.1 = [p.2]

/-- All scripts of the page are either from other servers or among the files of this one. -/
def FromServer (ts : List Token) (files : List Str) : Prop :=
  ∀ s ∈ scriptsOf ts, str% "https://" <+: s ∨ ∃ f ∈ files, s = str% "/static/" ++ f

end Swc.Spec
