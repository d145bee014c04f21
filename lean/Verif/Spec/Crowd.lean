/-
Independent specification of what many requests at once need: states that the server does not leave.
-/
import Verif.Spec.Click
import Verif.Spec.Commands

namespace Swc.Spec

open Swc

/-- The git commands that the server runs in a repository, if revisions are asked for that are in `N`. -/
def ServerGit (N : Str → Prop) (args : List Str) : Prop := (∃ old new, N old ∧ N new ∧ CompareGit True old new args) ∨ BranchGit True args

/-- Whatever the server does in a repository that is in one of the states `I`, it remains in one of them, if revisions are asked for that are in `N`. -/
def Steady (W : World) (N : Str → Prop) (I : W.State → Prop) : Prop := ∀ s args, I s → ServerGit N args → I (W.git s args).2

/-- All that is asked for about the repository are revisions in `N`. -/
def Company (s : Site) (repo : Str) (N : Str → Prop) (inbox : List (HttpRequest × (Response ⊕ Nat))) : Prop :=
  ∀ r x a, (r, x) ∈ inbox → Requests r (str% "/compare") → requestArgs s.u s.ent r.query = some a → a.repo = repo → N (trim a.old) ∧ N (trim a.new)

/-- The comparison is not being made. -/
def NotUnderWay {σ : Type} (c : Config σ) (a : CompareArgs) : Prop :=
  ∀ (i : Nat) pc, c.threads[i]? = some pc → (∀ ho st p, pc ≠ .running a ho st p) ∧ ∀ ho st fi r, pc ≠ .store a ho st fi r

/-- From the moment `c0` on, the server can compare what is asked for.  The repository is on the command line and comes from GitHub; the comparison is not
known yet; some states, of which the repository is in one, are not left by anything that the server does if revisions in `N` are asked for; in all of them the two revisions can be checked out, and
the functions in their weight files are `olds` and `news`; the filters are regular expressions, the numbers are not too large, and no name contains
`<`, `&` or `"`. -/
structure Comparable (W : World) (s : Site) (m : Machine) (cmd : ServerCmd) (c0 : Config W.State) (N : Str → Prop) (a : CompareArgs) (org : Str)
    (olds news : List Located) : Prop where
  repo : a.repo ∈ cmd.repos
  origin : getOriginOrg (m.origin (cmd.root.join a.repo)) = .ok org
  notRecent : NotRecent c0 a
  notUnderWay : NotUnderWay c0 a
  pattern : ¬ DotDot (trim a.pathPattern)
  states : ∃ I, Steady W N I ∧ I (c0.sh.repo a.repo) ∧ ∀ x, I x → Revisions W (cmd.root.join a.repo) a x olds news
  filters : ∀ q, a.pallet = some q ∨ a.extrinsic = some q → s.srv.rx.compile q ≠ none
  sized : AllSized a.method a.unit olds news
  files : ∀ x, x ∈ olds ∨ x ∈ news → Inert x.file
  names : BareNames cmd.repos ∧ Inert org ∧ Inert a.repo ∧ Inert a.old ∧ Inert a.new

end Swc.Spec
