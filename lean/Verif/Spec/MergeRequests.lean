/-
What the list of merge requests has to show.
-/
import Verif.Model.MergeRequests
import Verif.Spec.Html

namespace Swc.Spec

open Swc

/-- The same merge requests, newest first, and in the given order where the dates are equal. -/
structure NewestFirst (data l : List MergeRequest) : Prop where
  perm : l.Perm data
  sorted : l.Pairwise fun a b => b.updated ≤ a.updated
  stable : ∀ t, l.filter (fun m => m.updated = t) = data.filter fun m => m.updated = t

/-- A letter in lower or upper case. -/
def LetterOf (d c : Char) : Prop := c = d ∨ c.toNat + 32 = d.toNat

/-- A text contains a word, in whatever case. -/
def Mentions (word s : Str) : Prop := ∃ a w b, s = a ++ w ++ b ∧ List.Forall₂ LetterOf word w

/-- The merge request mentions weights. -/
def AboutWeights (mr : MergeRequest) : Prop :=
  Mentions (str% "weight") mr.title ∨ Mentions (str% "weight") mr.head ∨ Mentions (str% "weight") mr.base

/-- The merge request comes from the repository itself and not from a fork. -/
def Own (owner : Str) (mr : MergeRequest) : Prop := mr.headOwner = some owner

/-- Number of units of UTF-16. -/
def utf16Length (s : Str) : Nat := (s.map fun c => if c.toNat < 0x10000 then 1 else 2).sum

/-- The row shows the merge request: its title if it is not too long, author and branches; forks are gray and cannot be opened, merge requests about
weights are green. -/
structure ShowsRequest (owner : Str) (mr : MergeRequest) (r : MrRow) : Prop where
  title : utf16Length mr.title ≤ 100 → r.title = mr.title
  long : ∃ t, t <+: mr.title ∧ (r.title = t ∨ r.title = t ++ [Char.ofNat 0xFFFD]) ∧ utf16Length r.title ≤ 100
  author : r.author = mr.login
  head : r.head = mr.head
  base : r.base = mr.base
  gray : r.color = .gray ↔ ¬ Own owner mr
  green : r.color = .seagreen ↔ Own owner mr ∧ AboutWeights mr
  opens : ∀ m, r.opens = some m ↔ Own owner mr ∧ m = mr

/-- What is seen of a piece of HTML: its characters without the markup. -/
def seen (html : Str) : Str := (tokens html).filterMap fun
  | .char c => some c
  | _ => none

/-- The elements in a piece of HTML: name and attributes. -/
def elementsOf (html : Str) : List (Str × List (Str × Str)) := (tokens html).filterMap fun
  | .start name attrs => some (name, attrs)
  | _ => none

/-- A text in which nothing looks like markup. -/
def Unmarked (s : Str) : Prop := '<' ∉ s ∧ '&' ∉ s

/-- Names of owners and repositories on GitHub. -/
def GithubName (s : Str) : Prop :=
  s ≠ [] ∧ ∀ c ∈ s, (0x30 ≤ c.toNat ∧ c.toNat ≤ 0x39) ∨ (0x41 ≤ c.toNat ∧ c.toNat ≤ 0x5A) ∨ (0x61 ≤ c.toNat ∧ c.toNat ≤ 0x7A) ∨ c = '-' ∨ c = '.' ∨ c = '_'

end Swc.Spec
