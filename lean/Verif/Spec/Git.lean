/-
Independent specification of checking out revisions and listing files, in terms of the git commands and glob patterns only.
-/
import Verif.Model.Git
import Verif.Spec.Language

namespace Swc.Spec

open Swc

/-- The comma-separated pieces of a pattern. -/
def Pieces (pattern : Str) (ps : List Str) : Prop := ps ≠ [] ∧ (∀ p ∈ ps, ',' ∉ p) ∧ joinStr (str% ",") ps = pattern

/-- The matches of a glob pattern, all readable. -/
def GlobMatches (W : World) (s : W.State) (pattern : Str) (ms : List Path) : Prop := W.glob s pattern = .ok (ms.map .ok)

/-- The matches `ms` of the pieces `ps` of a pattern below `base`, piece by piece, without the files called `mod.rs`. -/
def Found (W : World) (s : W.State) (base : Path) (ps : List Str) (ms : List (List Path)) : Prop :=
  List.Forall₂ (fun p m => ∃ all, GlobMatches W s (base.display ++ str% "/" ++ p) all
    ∧ m = all.filter fun f => f.getLast? ≠ some (.normal (str% "mod.rs"))) ps ms

/-- The outcome of listing: all matches, sorted by path and without duplicates, if they are not too many. -/
def Listed (W : World) (s : W.State) (base : Path) (pattern : Str) (maxFiles : Nat) (files : List Path) : Prop :=
  ∃ ps ms, Pieces pattern ps ∧ Found W s base ps ms ∧ ms.flatten.length ≤ maxFiles
    ∧ files.Pairwise (fun a c => Path.cmp a c = .lt) ∧ ∀ f, f ∈ files ↔ f ∈ ms.flatten

/-- Git ends successfully. -/
def Success (out : GitOut) : Prop := ∃ stdout stderr utf8, out = .exited true stdout stderr utf8

/-- `args` runs successfully from `s` and leaves `s'`. -/
def Succeeds (W : World) (s : W.State) (args : List Str) (L : List Event) (s' : W.State) : Prop :=
  ∃ out, W.git s args = (out, s') ∧ Success out ∧ L = [.git args out]

/-- `args` runs unsuccessfully from `s` and leaves `s'`. -/
def Fails (W : World) (s : W.State) (args : List Str) (L : List Event) (s' : W.State) : Prop :=
  ∃ out, W.git s args = (out, s') ∧ ¬ Success out ∧ L = [.git args out]

/-- The revision is fetched, if at all. -/
def Fetched (W : World) (refname : Str) (pull : Bool) (s : W.State) (L : List Event) (s' : W.State) : Prop :=
  (pull = true ∧ Succeeds W s [str% "fetch", str% "origin", refname] L s') ∨ (pull = false ∧ L = [] ∧ s' = s)

/-- The successful ways of checking out a revision, with the commands issued. -/
def CheckedOut (W : World) (refname : Str) (pull force : Bool) (s : W.State) (L : List Event) (s' : W.State) : Prop :=
  ∃ L0 s0 L1, Fetched W refname pull s L0 s0 ∧ L = L0 ++ L1
    ∧ ((force = false ∧ Succeeds W s0 [str% "checkout", refname] L1 s')
      ∨ (force = true ∧ Succeeds W s0 [str% "reset", str% "--hard", str% "origin/" ++ refname] L1 s')
      ∨ (force = true ∧ ∃ s1 L2 L3, Fails W s0 [str% "reset", str% "--hard", str% "origin/" ++ refname] L2 s1
        ∧ Succeeds W s1 [str% "reset", str% "--hard", refname] L3 s' ∧ L1 = L2 ++ L3))

/-- The unsuccessful ways of checking out a revision, with the commands issued: whatever fails is the last command. -/
def CheckoutFails (W : World) (refname : Str) (pull force : Bool) (s : W.State) (L : List Event) (s' : W.State) : Prop :=
  (pull = true ∧ Fails W s [str% "fetch", str% "origin", refname] L s')
    ∨ ∃ L0 s0 L1, Fetched W refname pull s L0 s0 ∧ L = L0 ++ L1
      ∧ ((force = false ∧ Fails W s0 [str% "checkout", refname] L1 s')
        ∨ (force = true ∧ ∃ s1 L2 L3, Fails W s0 [str% "reset", str% "--hard", str% "origin/" ++ refname] L2 s1
          ∧ Fails W s1 [str% "reset", str% "--hard", refname] L3 s' ∧ L1 = L2 ++ L3))

/-- `..` occurs in `s`. -/
def DotDot (s : Str) : Prop := ['.', '.'] <:+: s

/-- The extrinsics read from the files as they are in the state `s`, in order, each named by its path within the repository; if errors are ignored, files that are refused
count as empty. -/
def ParsedAs (W : World) (env : Env) (repo : Path) (ignoreErrors : Bool) (s : W.State) (paths : List Path) (exts : List ChromaticExtrinsic) : Prop :=
  ∃ parts, List.Forall₂ (fun p x => UnderstoodFile env (W.fs s) p (((Path.stripPrefix repo p).getD p).display) x ∨
      (ignoreErrors = true ∧ x = [] ∧ RefusedFile env (W.fs s) p)) paths parts ∧
    exts = parts.flatten

end Swc.Spec
