/-
Independent specification of what a request for a comparison finds: the two revisions of the repository, and whether it is new.
-/
import Verif.Spec.Alive
import Verif.Spec.Report
import Verif.Spec.Git

namespace Swc.Spec

open Swc

/-- The comparison has not been made in the last ten minutes. -/
def NotRecent {σ : Type} (c : Config σ) (a : CompareArgs) : Prop :=
  ∀ id ho st fi v t, Entry.computed id a ho st fi (.ok v) t ∈ c.sh.log → t + maxAge ≤ c.sh.clock

/-- From the state `s0` of the repository, both revisions can be checked out; all files that the pattern finds are generated weight files (or have no `impl`
block, if errors are ignored), and these are their functions. -/
def Revisions (W : World) (repo : Path) (a : CompareArgs) (s0 : W.State) (olds news : List Located) : Prop :=
  ∃ G1 s1 files1 G2 s2 files2,
    CheckedOut W (trim a.old) (a.gitPull ≠ some false) true s0 G1 s1 ∧ Listed W s1 repo (trim a.pathPattern) 6000 files1 ∧
    FunctionsOf (W.fs s1) repo a.ignoreErrors files1 olds ∧
    CheckedOut W (trim a.new) (a.gitPull ≠ some false) true s1 G2 s2 ∧ Listed W s2 repo (trim a.pathPattern) 6000 files2 ∧
    FunctionsOf (W.fs s2) repo a.ignoreErrors files2 news

end Swc.Spec
