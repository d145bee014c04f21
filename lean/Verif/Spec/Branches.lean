/-
Independent specification of the branch listing: what the lines of `git ls-remote` look like, and words and bytes of a string.
-/
import Verif.Model.Branches

namespace Swc.Spec

open Swc

/-- `ws` are the words of `s`, separated by white space. -/
inductive Words : Str → List Str → Prop
  | none {s} (h : ∀ c ∈ s, isSpace c = true) : Words s []
  | some {p w r ws} (hp : ∀ c ∈ p, isSpace c = true) (hw : w ≠ []) (hn : ∀ c ∈ w, isSpace c = false)
      (hr : ∀ c, r.head? = .some c → isSpace c = true) (h : Words r ws) : Words (p ++ w ++ r) (w :: ws)

/-- The second text is the first one without the white space around it. -/
def Trimmed (s t : Str) : Prop := ∃ a b, s = a ++ t ++ b ∧ (∀ c ∈ a, isSpace c = true) ∧ (∀ c ∈ b, isSpace c = true) ∧
  (∀ c, t.head? = some c → isSpace c = false) ∧ ∀ c, t.getLast? = some c → isSpace c = false

/-- Number of bytes of a string. -/
def bytes (s : Str) : Nat := (s.map Char.utf8Size).sum

/-- `pat` occurs in `s`. -/
def Inside (pat s : Str) : Prop := pat <:+: s

/-- A reference as listed by `git ls-remote --tags --heads`. -/
structure Ref where
  hash : Str
  tag : Bool
  name : Str

/-- Full name. -/
def Ref.full (r : Ref) : Str := (if r.tag then str% "refs/tags/" else str% "refs/heads/") ++ r.name

/-- The line for a reference. -/
def Ref.line (r : Ref) : Str := r.hash ++ str% "\t" ++ r.full

/-- A lower-case hexadecimal digit. -/
def isHex (c : Char) : Bool := ('0' ≤ c && c ≤ '9') || ('a' ≤ c && c ≤ 'f')

/-- What git guarantees: the hash consists of (40 or 64) hexadecimal digits, the name is not empty and has no white space. -/
structure Ref.WellFormed (r : Ref) : Prop where
  hash : 12 ≤ r.hash.length ∧ ∀ c ∈ r.hash, isHex c = true
  name : r.name ≠ [] ∧ ∀ c ∈ r.name, isSpace c = false

/-- The name does not itself contain the prefix of a full name. -/
def Ref.Plain (r : Ref) : Prop := ¬ Inside (str% "refs/heads/") r.name ∧ ¬ Inside (str% "refs/tags/") r.name

/-- The output of git: one line for each reference. -/
def output (rs : List Ref) : Str := (rs.map fun r => r.line ++ str% "\n").flatten

/-- References without the characters that the handler does not want. -/
def Ref.wanted (r : Ref) : Bool := !r.name.contains '{' && !r.name.contains '^'

/-- The lines of a text.  A line ends with a line feed, or a carriage return and a line feed, and the last one also with the text. -/
inductive LinesOf : Str → List Str → Prop
  | none : LinesOf [] []
  | last {l} (hl : l ≠ []) (hn : '\n' ∉ l) : LinesOf l [l]
  | lf {l rest ls} (hn : '\n' ∉ l) (hr : l.getLast? ≠ some '\r') (h : LinesOf rest ls) : LinesOf (l ++ '\n' :: rest) (l :: ls)
  | crlf {l rest ls} (hn : '\n' ∉ l) (h : LinesOf rest ls) : LinesOf (l ++ '\r' :: '\n' :: rest) (l :: ls)

/-- The second text is the first one without the occurrences of `pat`, looked for from left to right. -/
inductive Erased (pat : Str) : Str → Str → Prop
  | nil : Erased pat [] []
  | here {s t} (h : Erased pat s t) : Erased pat (pat ++ s) t
  | keep {c s t} (hc : ¬ pat <+: c :: s) (h : Erased pat s t) : Erased pat (c :: s) (c :: t)

/-- A line gives a name and an abbreviated hash: without `refs/heads/` and then without `refs/tags/`, its second word is the name and the first
twelve bytes of its first word are the hash. -/
def LineGives (l : Str) (b : Str × Str) : Prop :=
  ∃ t u w ws r, Erased (str% "refs/heads/") l t ∧ Erased (str% "refs/tags/") t u ∧ Words u (w :: b.1 :: ws) ∧ w = b.2 ++ r ∧ bytes b.2 = 12

/-- A line that is not left out. -/
def Regular (l : Str) : Prop := '{' ∉ l ∧ '^' ∉ l

/-- The regular lines of the text give these names and hashes, in order. -/
inductive LinesGive : List Str → List (Str × Str) → Prop
  | nil : LinesGive [] []
  | skip {l ls bs} (hl : ¬ Regular l) (h : LinesGive ls bs) : LinesGive (l :: ls) bs
  | take {l ls b bs} (hl : Regular l) (hb : LineGives l b) (h : LinesGive ls bs) : LinesGive (l :: ls) (b :: bs)

/-- The text lists these names and hashes. -/
def Lists (text : Str) (bs : List (Str × Str)) : Prop := ∃ ls, LinesOf text ls ∧ LinesGive ls bs

/-- The text has a regular line that gives nothing. -/
def Garbled (text : Str) : Prop := ∃ ls, LinesOf text ls ∧ ∃ l ∈ ls, Regular l ∧ ¬ ∃ b, LineGives l b

end Swc.Spec
