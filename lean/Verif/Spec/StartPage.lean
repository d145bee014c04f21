/-
What the start page is about: the events of a visit, in order, and what they amount to.
-/
import Verif.Model.StartPage

namespace Swc.Spec

/-- The page `p` after the events `tr`, with the local storage `store` at the beginning. -/
inductive Visit (served : List Str) (store : Str → Option Str) : List PageEvent → StartPage → Prop
  | loaded : Visit served store [] (.loaded store)
  | step {tr p e p'} (h : Visit served store tr p) (hs : p.step served e = some p') : Visit served store (tr ++ [e]) p'

/-- The last repository the user selected. -/
inductive Chosen : List PageEvent → Str → Prop
  | here {tr r} : Chosen (tr ++ [.repo r]) r
  | later {tr r e} (h : Chosen tr r) (he : ∀ r', e ≠ .repo r') : Chosen (tr ++ [e]) r

/-- The last list the server sent for the repository `r`. -/
def LastAnswer (tr : List PageEvent) (r : Str) (list : List (Str × Str)) : Prop :=
  ∃ pre i post, tr = pre ++ .answer i r list :: post ∧ ∀ j l, .answer j r l ∉ post

/-- A visit in which the user waits for the list of branches before selecting another repository or fetching, and in which no request fails. -/
inductive Patient (served : List Str) (store : Str → Option Str) : List PageEvent → StartPage → Prop
  | loaded : Patient served store [] (.loaded store)
  | repo {tr p r p'} (h : Patient served store tr p) (hw : p.waiting = []) (hs : p.step served (.repo r) = some p') : Patient served store (tr ++ [.repo r]) p'
  | fetch {tr p p'} (h : Patient served store tr p) (hw : p.waiting = []) (hs : p.step served .fetchFirst = some p') : Patient served store (tr ++ [.fetchFirst]) p'
  | idle {tr p p'} (h : Patient served store tr p) (hs : p.step served .fetchSecond = some p') : Patient served store (tr ++ [.fetchSecond]) p'
  | answer {tr p i r l p'} (h : Patient served store tr p) (hs : p.step served (.answer i r l) = some p') : Patient served store (tr ++ [.answer i r l]) p'
  | first {tr p v p'} (h : Patient served store tr p) (hs : p.step served (.first v) = some p') : Patient served store (tr ++ [.first v]) p'
  | second {tr p v p'} (h : Patient served store tr p) (hs : p.step served (.second v) = some p') : Patient served store (tr ++ [.second v]) p'

/-- The page names `master` if it is offered, and nothing otherwise. -/
def masterOf (names : List Str) : Option Str := if str% "master" ∈ names then some (str% "master") else none

end Swc.Spec
