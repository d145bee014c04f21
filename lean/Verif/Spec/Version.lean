/-
Independent specification of versions: Semantic Versioning 2.0.0 (without its bound on the size of numbers, there is none), and what the manual of `git describe --always` says about a
history in which the annotated tags are those of releases.
-/
import Verif.Model.Version

namespace Swc.Spec

open Swc

/-- `1.2.3` -/
def dotted (v : Nat × Nat × Nat) : Str := natToStr v.1 ++ '.' :: (natToStr v.2.1 ++ '.' :: natToStr v.2.2)

/-- Semantic Versioning 9 and 10: a character of an identifier. -/
def IdChar (c : Char) : Prop := ('0' ≤ c ∧ c ≤ '9') ∨ ('A' ≤ c ∧ c ≤ 'Z') ∨ ('a' ≤ c ∧ c ≤ 'z') ∨ c = '-'

/-- Semantic Versioning 10: identifiers, separated by dots. -/
def Idents (s : Str) : Prop := ∃ l : List Str, l ≠ [] ∧ (∀ i ∈ l, i ≠ [] ∧ ∀ c ∈ i, IdChar c) ∧ s = (str% ".").intercalate l

/-- Semantic Versioning 9: in those of a preview numbers have no leading zeros. -/
def PreRelease (s : Str) : Prop :=
  ∃ l : List Str, l ≠ [] ∧ (∀ i ∈ l, i ≠ [] ∧ (∀ c ∈ i, IdChar c) ∧ ((∀ c ∈ i, '0' ≤ c ∧ c ≤ '9') → i = str% "0" ∨ i.head? ≠ some '0')) ∧ s = (str% ".").intercalate l

/-- Semantic Versioning 2. -/
def SemVer (s : Str) : Prop :=
  ∃ (v : Nat × Nat × Nat) (pre build : Str), s = dotted v ++ pre ++ build ∧ (pre = [] ∨ ∃ p, pre = '-' :: p ∧ PreRelease p) ∧ (build = [] ∨ ∃ q, build = '+' :: q ∧ Idents q)

/-- A history of the repository.  Annotated tags are made by `make publish`, each for one commit; `hash` is what git abbreviates the hash of a commit to. -/
structure History where
  Commit : Type
  package : Commit → Nat × Nat × Nat
  tagged : Commit → Option (Nat × Nat × Nat)
  nearest : Commit → Option ((Nat × Nat × Nat) × Nat)
  hash : Commit → Str
  hash_hex : ∀ c, hash c ≠ [] ∧ ∀ d ∈ hash c, ('0' ≤ d ∧ d ≤ '9') ∨ ('a' ≤ d ∧ d ≤ 'f')
  hash_one : ∀ {c c'}, hash c = hash c' → c = c'
  tag_one : ∀ {c c' t}, tagged c = some t → tagged c' = some t → c = c'

/-- `git describe --always`: the tag of the commit, or else the nearest one before it with the number of commits since then and the hash, or else the hash alone. -/
def History.describe (h : History) (c : h.Commit) : Str :=
  match h.tagged c, h.nearest c with
  | some t, _ => releaseTag (dotted t)
  | none, some (t, n) => releaseTag (dotted t) ++ '-' :: (natToStr n ++ '-' :: 'g' :: h.hash c)
  | none, none => h.hash c

/-- The version of a build from a clone of the repository with that commit. -/
def History.version (h : History) (c : h.Commit) : Str := libraryVersion (dotted (h.package c)) (some (h.describe c))

end Swc.Spec
