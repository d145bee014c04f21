/-
Independent specification of what is outside of a repository, and of patterns that lead there.
-/
import Verif.Spec.Glob
import Verif.Spec.Failure

namespace Swc.Spec

open Swc

/-- The same git on a machine whose files are others. -/
def elsewhere (W : World) (glob : W.State → Str → Except Str (List (Except Str Path))) (fs : W.State → Fs) : World := { W with glob := glob, fs := fs }

/-- Two machines that have the same in the repository: below the path there are the same names, and the same is in the files.  Everything else may differ. -/
def SameInside {S : Type} (disk disk' : S → GlobDisk) (fs fs' : S → Fs) (base : Path) : Prop :=
  ∀ st, ∃ repo repo', RepoAt (disk st) base repo ∧ RepoAt (disk' st) base repo' ∧ repo'.node = repo.node ∧ DistinctNames repo.node ∧
    ∀ ns n, LeadsTo repo.node ns n → fs' st (undotted base ++ ns.map .normal) = fs st (undotted base ++ ns.map .normal)

/-- So many directories up.  (Nothing that is in one of them is called `..`.) -/
inductive Above : GlobSpot → Nat → GlobSpot → Prop
  | here {s : GlobSpot} : Above s 0 s
  | up {s t : GlobSpot} {k : Nat} {es : GlobEntries} : s.node = .dir es → (∀ n, ¬ HasEntry es (str% "..") n) → Above s.parent k t → Above s (k + 1) t

/-- The pattern that goes so many directories up, and then down again by these names. -/
def climbing (k : Nat) (ns : List Str) : Str := joinStr (str% "/") (List.replicate k (str% ".[.]") ++ ns)

/-- So many directories above the repository, and then by these names, there is a file.  The names have no meaning in patterns, and no two dots. -/
structure Outside (repo : GlobSpot) (k : Nat) (ns : List Str) : Prop where
  up : 0 < k
  there : ∃ top file, Above repo k top ∧ Goes top (ns.map .normal) file
  some_ : ns ≠ []
  names : ∀ n ∈ ns, ',' ∉ n ∧ ¬ DotDot n
  last : ns.getLast? ≠ some (str% "mod.rs")

/-- The path of this file: up from the repository, and down. -/
def outsidePath (pre : Path) (k : Nat) (ns : List Str) : Path := pre ++ List.replicate k .parent ++ ns.map .normal

/-- This is the text of the file, however the path of the repository is written. -/
def TextOutside (fs : Fs) (base : Path) (k : Nat) (ns : List Str) (content : Str) : Prop :=
  ∀ pre, (pre = base ∨ pre = undotted base) → fs (outsidePath pre k ns) = .ok content

end Swc.Spec
