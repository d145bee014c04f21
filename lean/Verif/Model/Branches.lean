/-
Model of the text processing of the `branches` handler (`web/src/main.rs:264-278`) and of the standard library functions it uses.
-/
import Verif.Model.Git

namespace Swc

/-- `char::is_whitespace`: the Unicode property `White_Space`. -/
def isSpace (c : Char) : Bool :=
  let n := c.toNat
  (9 ≤ n && n ≤ 13) || n == 0x20 || n == 0x85 || n == 0xA0 || n == 0x1680 || (0x2000 ≤ n && n ≤ 0x200A) || n == 0x2028 || n == 0x2029
    || n == 0x202F || n == 0x205F || n == 0x3000

/-- `str::trim`. -/
def trim (s : Str) : Str := ((s.dropWhile isSpace).reverse.dropWhile isSpace).reverse

/-- Remove one `'\r'` at the end. -/
def stripCr (s : Str) : Str := if s.getLast? = some '\r' then s.dropLast else s

/-- `str::lines`: split at `'\n'`, without the empty piece after a final `'\n'`; a `'\r'` before a `'\n'` is removed. -/
def lines (s : Str) : List Str :=
  let ps := splitChar '\n' s
  (ps.dropLast.map stripCr) ++ (match ps.getLast? with | some [] => [] | some l => [l] | none => [])

/-- `l.replace(pat, "")`: remove the non-overlapping occurrences of `pat` (non-empty), from left to right. -/
def removeAll (pat : Str) (s : Str) : Str :=
  match s with
  | [] => []
  | c :: t =>
    if pat ≠ [] ∧ pat.isPrefixOf (c :: t) then removeAll pat ((c :: t).drop pat.length)
    else c :: removeAll pat t
termination_by s.length
decreasing_by
  · rename_i h
    have : 0 < pat.length := List.length_pos_of_ne_nil h.1
    simp only [List.length_drop, List.length_cons]; omega
  · simp

/-- `str::split_whitespace`. -/
def splitWhitespace (s : Str) : List Str := go s []
where
  /-- The current piece is kept in reverse. -/
  go : Str → Str → List Str
    | [], [] => []
    | [], cur => [cur.reverse]
    | c :: s, cur =>
      if isSpace c then
        if cur = [] then go s [] else cur.reverse :: go s []
      else go s (c :: cur)

/-- `&s[..n]`: panics if `s` is shorter than `n` bytes, or if byte `n` is not at a character boundary. -/
def takeBytes (n : Nat) (s : Str) : Option Str :=
  match n, s with
  | 0, _ => some []
  | _ + 1, [] => none
  | n + 1, c :: s => if c.utf8Size ≤ n + 1 then (takeBytes (n + 1 - c.utf8Size) s).map (c :: ·) else none
termination_by s.length

/-- `web/src/main.rs:274-277`: name and abbreviated hash of one line. -/
def branchOf (l : Str) : Res (Str × Str) :=
  match splitWhitespace l with
  | hash :: name :: _ =>
    match takeBytes 12 hash with
    | some h => .ok (name, h)
    | none => .panic
  | _ => .panic

/-- `web/src/main.rs:264-278`. -/
def parseBranches (stdout : Str) : Res (List (Str × Str)) :=
  ((lines stdout).filter fun l => !l.contains '{' && !l.contains '^').mapM fun l =>
    branchOf (removeAll (str% "refs/tags/") (removeAll (str% "refs/heads/") l))

end Swc
