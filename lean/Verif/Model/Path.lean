/-
Model of `std::path::Path` and of `PathStripping` (`core/src/parse/mod.rs:36-69`).

A path is the list of its components as given by `Path::components` (which drops repeated separators and inner `.`).  Two paths that
differ only in such redundancies are identified, as `Path`'s own equality and order do; only their text could differ.
-/
import Verif.Model.Basic

namespace Swc

/-- `std::path::Component` (without Windows prefixes). -/
inductive Comp where
  | root
  | cur
  | parent
  | normal (s : Str)
  deriving DecidableEq

/-- Index of the variant. -/
def Comp.idx : Comp → Nat
  | .root => 0
  | .cur => 1
  | .parent => 2
  | .normal _ => 3

/-- The derived `Ord` of `Component`. -/
def Comp.cmp : Comp → Comp → Ordering
  | .normal a, .normal c => compare a c
  | a, c => compare a.idx c.idx

/-- `std::path::Path`. -/
abbrev Path := List Comp

namespace Path

/-- `Ord for Path`: lexicographic by components. -/
def cmp : Path → Path → Ordering
  | [], [] => .eq
  | [], _ :: _ => .lt
  | _ :: _, [] => .gt
  | a :: l, c :: r => (Comp.cmp a c).then (cmp l r)

/-- Text of a component. -/
def compStr : Comp → Str
  | .root => []
  | .cur => str% "."
  | .parent => str% ".."
  | .normal s => s

/-- `path.display()` / `to_string_lossy()`. -/
def display : Path → Str
  | [.root] => str% "/"
  | p => joinStr (str% "/") (p.map compStr)

/-- `path.file_name()`: the last component if it is a normal one. -/
def fileName (p : Path) : Option Str :=
  match p.getLast? with
  | some (.normal s) => some s
  | _ => none

/-- `path.strip_prefix(base)`: by components. -/
def stripPrefix : Path → Path → Option Path
  | [], p => some p
  | _ :: _, [] => none
  | b :: bs, c :: p => if b = c then stripPrefix bs p else none

/-- `path.ends_with("mod.rs")`: by components. -/
def endsWithModRs (p : Path) : Bool := p.getLast? == some (.normal (str% "mod.rs"))

end Path

/-- `core/src/parse/mod.rs:37-42` `enum PathStripping`. -/
inductive PathStripping where
  | fileName
  | repoRelative
  deriving DecidableEq

/-- `core/src/parse/mod.rs:45-51` `PathStripping::strip`; the `unwrap` of `file_name` is an explicit panic. -/
def PathStripping.strip : PathStripping → Path → Path → Res Str
  | .fileName, _, path => Res.unwrap path.fileName
  | .repoRelative, repo, path => .ok (Path.display ((Path.stripPrefix repo path).getD path))

end Swc
