/-
Independent specification of path patterns: which names and which paths a pattern describes, read off its text.
-/
import Verif.Model.Glob
import Verif.Spec.Git

namespace Swc.Spec

open Swc

/-! ### Names -/

/-- The character is one of those written between brackets: `a-c` are three, all others stand for themselves. -/
inductive InBrackets : Str → Char → Prop
  | range {a b c : Char} {s : Str} : a ≤ c → c ≤ b → InBrackets (a :: '-' :: b :: s) c
  | after {a b c : Char} {s : Str} : InBrackets s c → InBrackets (a :: '-' :: b :: s) c
  | single {c : Char} {s : Str} : (∀ b t, s ≠ '-' :: b :: t) → InBrackets (c :: s) c
  | later {a c : Char} {s : Str} : (∀ b t, s ≠ '-' :: b :: t) → InBrackets s c → InBrackets (a :: s) c

/-- The pattern describes the name. -/
inductive Describes : Str → Str → Prop
  | done : Describes [] []
  | same {c : Char} {p n : Str} : c ≠ '?' → c ≠ '*' → c ≠ '[' → Describes p n → Describes (c :: p) (c :: n)
  | one {c : Char} {p n : Str} : Describes p n → Describes ('?' :: p) (c :: n)
  | none {p n : Str} : Describes p n → Describes ('*' :: p) n
  | more {c : Char} {p n : Str} : Describes ('*' :: p) n → Describes ('*' :: p) (c :: n)
  | among {x c : Char} {body p n : Str} : x ≠ '!' → ']' ∉ body → InBrackets (x :: body) c → Describes p n → Describes ('[' :: x :: body ++ ']' :: p) (c :: n)
  | notAmong {x c : Char} {body p n : Str} : ']' ∉ body → ¬ InBrackets (x :: body) c → Describes p n → Describes ('[' :: '!' :: x :: body ++ ']' :: p) (c :: n)

/-- The pattern for names is well formed: no two stars in a row, brackets closed and not empty. -/
inductive WellFormed : Str → Prop
  | done : WellFormed []
  | same {c : Char} {p : Str} : c ≠ '*' → c ≠ '[' → WellFormed p → WellFormed (c :: p)
  | star {p : Str} : p.head? ≠ some '*' → WellFormed p → WellFormed ('*' :: p)
  | among {x : Char} {body p : Str} : x ≠ '!' → ']' ∉ body → WellFormed p → WellFormed ('[' :: x :: body ++ ']' :: p)
  | notAmong {x : Char} {body p : Str} : ']' ∉ body → WellFormed p → WellFormed ('[' :: '!' :: x :: body ++ ']' :: p)

/-- The component that stands for any number of directories. -/
abbrev anyDirs : Str := ['*', '*']

/-! ### Paths -/

/-- The components of a pattern describe the names on the way to a file: `**` any number of them (at the end, at least one), every
other component one. -/
inductive DescribesPath : List Str → List Str → Prop
  | done : DescribesPath [] []
  | name {p n : Str} {ps ns : List Str} : p ≠ anyDirs → Describes p n → DescribesPath ps ns → DescribesPath (p :: ps) (n :: ns)
  | skip {ps ns : List Str} : ps ≠ [] → DescribesPath ps ns → DescribesPath (anyDirs :: ps) ns
  | last {n : Str} : DescribesPath [anyDirs] [n]
  | deeper {n : Str} {ps ns : List Str} : DescribesPath (anyDirs :: ps) ns → DescribesPath (anyDirs :: ps) (n :: ns)

/-- The components of a pattern, none of which is empty or begins with a dot. -/
structure Ordinary (piece : Str) (comps : List Str) : Prop where
  split : joinStr (str% "/") comps = piece
  some_ : comps ≠ []
  names : ∀ p ∈ comps, '/' ∉ p ∧ p ≠ [] ∧ p.head? ≠ some '.'
  good : ∀ p ∈ comps, p = anyDirs ∨ WellFormed p

/-! ### Files -/

/-- A directory has an entry of this name. -/
inductive HasEntry : GlobEntries → Str → GlobNode → Prop
  | first {s : Str} {n : GlobNode} {es : GlobEntries} : HasEntry (.cons s n es) s n
  | later {s t : Str} {n m : GlobNode} {es : GlobEntries} : HasEntry es s n → HasEntry (.cons t m es) s n

/-- These names lead from one node to another. -/
inductive LeadsTo : GlobNode → List Str → GlobNode → Prop
  | here {n : GlobNode} : LeadsTo n [] n
  | down {es : GlobEntries} {s : Str} {c n : GlobNode} {ns : List Str} : HasEntry es s c → LeadsTo c ns n → LeadsTo (.dir es) (s :: ns) n

/-- No directory has two entries of the same name. -/
def DistinctNames (n : GlobNode) : Prop := ∀ ns es s a c, LeadsTo n ns (.dir es) → HasEntry es s a → HasEntry es s c → a = c

/-- The names of the entries of a directory. -/
def entryNames : GlobEntries → List Str
  | .nil => []
  | .cons s _ es => s :: entryNames es

/-- No directory lists a name twice. -/
def Tidy (n : GlobNode) : Prop := ∀ ns es, LeadsTo n ns (.dir es) → (entryNames es).Nodup

/-- No file is described by two of the patterns. -/
def NoOverlap (pieces : List Str) : Prop :=
  pieces.Pairwise fun a c => ∀ comps comps' ns, Ordinary a comps → Ordinary c comps' → DescribesPath comps ns → ¬ DescribesPath comps' ns

/-- A name without meaning in patterns. -/
structure NoMeaning (s : Str) : Prop where
  wild : '*' ∉ s ∧ '?' ∉ s ∧ '[' ∉ s
  slash : '/' ∉ s
  dots : s ≠ [] ∧ s ≠ ['.'] ∧ s ≠ ['.', '.']

/-- A path leads from one place to another. -/
inductive Goes : GlobSpot → Path → GlobSpot → Prop
  | stop {s : GlobSpot} : Goes s [] s
  | parent {s t : GlobSpot} {p : Path} : s.node.isDir = true → Goes s.parent p t → Goes s (.parent :: p) t
  | name {s c t : GlobSpot} {n : Str} {p : Path} : NoMeaning n → s.child n = some c → Goes c p t → Goes s (.normal n :: p) t

/-- The repository is at this path, and the names on the path have no meaning in patterns. -/
inductive RepoAt (d : GlobDisk) : Path → GlobSpot → Prop
  | absolute {p : Path} {t : GlobSpot} : p ≠ [] → Goes ⟨d.root, []⟩ p t → RepoAt d (.root :: p) t
  | relative {p : Path} {t : GlobSpot} : p ≠ [] → Goes d.cwd p t → RepoAt d p t
  | current {p : Path} {t : GlobSpot} : d.cwd.node.isDir = true → Goes d.cwd p t → RepoAt d (.cur :: p) t

/-- A path without a leading dot. -/
def undotted : Path → Path
  | .cur :: p => p
  | p => p

/-- The file is below the directory, whose path is `pre`, and described by a pattern with these components.  If the last is `**`, it is a directory. -/
def Selects (pre : Path) (dir : GlobNode) (comps : List Str) (f : Path) : Prop :=
  ∃ ns n, LeadsTo dir ns n ∧ DescribesPath comps ns ∧ (comps.getLast? = some anyDirs → n.isDir = true) ∧ f = pre ++ ns.map .normal

/-- The file is below the repository, is not called `mod.rs`, and is described by one of these patterns. -/
def Wanted (base : Path) (repo : GlobNode) (pieces : List Str) (f : Path) : Prop :=
  f.getLast? ≠ some (.normal (str% "mod.rs")) ∧ ∃ piece ∈ pieces, ∃ comps, Ordinary piece comps ∧ Selects (undotted base) repo comps f

/-- The names on the way from a copy of polkadot-sdk to its weight files. -/
inductive WeightFile : List Str → Prop
  | frame (dirs : List Str) : WeightFile ([str% "substrate", str% "frame"] ++ dirs ++ [str% "src", str% "weights.rs"])
  | runtime (r : Str) (dirs : List Str) (name : Str) : WeightFile ([str% "polkadot", str% "runtime", r, str% "src", str% "weights"] ++ dirs ++ [name ++ str% ".rs"])
  | bridge (m : Str) : WeightFile [str% "polkadot", str% "bridges", str% "modules", m, str% "src", str% "weights.rs"]
  | parachain (dirs : List Str) (name : Str) : WeightFile ([str% "cumulus"] ++ dirs ++ [str% "weights", name ++ str% ".rs"])
  | xcm (dirs : List Str) (name : Str) : WeightFile ([str% "cumulus"] ++ dirs ++ [str% "weights", str% "xcm", name ++ str% ".rs"])
  | pallet (dirs : List Str) : WeightFile ([str% "cumulus"] ++ dirs ++ [str% "src", str% "weights.rs"])

/-- The files are on a disk that depends on the state of the repository, and patterns are what the crate takes them for. -/
def OnDisk (W : World) (disk : W.State → GlobDisk) : Prop :=
  ∀ s p, (∀ l, globOn (disk s) p = some l → W.glob s p = .ok (l.map .ok)) ∧ (globOn (disk s) p = none → ∃ e, W.glob s p = .error e)

end Swc.Spec
