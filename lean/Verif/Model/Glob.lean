/-
The `glob` crate (0.3.1), as far as `list_files` (`core/src/lib.rs:304-330`) depends on it: patterns, matching of names, and the walk through directories of
`glob::glob` with its default options.  It is not part of the repository; this is what C98 takes it to do.

Left out: symbolic links, directories that cannot be read, names that are not UTF-8, Windows, and the texts of the errors.  Directories list their entries in the
order of their names, as the crate sorts them.
-/
import Verif.Model.Git

namespace Swc

/-! ### Patterns -/

/-- `CharSpecifier` -/
inductive CharSpec where
  | single (c : Char)
  | range (a b : Char)
  deriving DecidableEq

/-- `PatternToken` -/
inductive GlobTok where
  | char (c : Char)
  | anyChar
  | anySeq
  | anyRec
  | within (cs : List CharSpec)
  | except (cs : List CharSpec)
  deriving DecidableEq

/-- `parse_char_specifiers` -/
def charSpecs : Str → List CharSpec
  | a :: '-' :: b :: s => .range a b :: charSpecs s
  | a :: s => .single a :: charSpecs s
  | [] => []

/-- The text before the first `]` and the text after it. -/
def untilBracket : Str → Option (Str × Str)
  | [] => none
  | ']' :: s => some ([], s)
  | c :: s => (untilBracket s).map fun r => (c :: r.1, r.2)

theorem untilBracket_length {s : Str} {r : Str × Str} (h : untilBracket s = some r) : r.2.length < s.length := by
  induction s generalizing r with
  | nil => nomatch h
  | cons c s ih =>
    unfold untilBracket at h
    split at h
    · nomatch h
    · next e => cases e; cases h; simp
    · next e =>
      cases e
      obtain ⟨r', h1, rfl⟩ := Option.map_eq_some_iff.1 h
      have := ih h1
      simp only [List.length_cons]
      omega

/-- `Pattern::new`, after the character `prev` of the pattern; `none` for its errors.  Two stars must be a component of their own, three are refused, and brackets
must be closed and not be empty. -/
def parseGlob (prev : Option Char) : Str → Option (List GlobTok)
  | [] => some []
  | '?' :: s => (parseGlob (some '?') s).map (.anyChar :: ·)
  | '*' :: '*' :: '*' :: _ => none
  | ['*', '*'] => if prev = none ∨ prev = some '/' then some [.anyRec] else none
  | '*' :: '*' :: c :: s => if (prev = none ∨ prev = some '/') ∧ c = '/' then (parseGlob (some '/') s).map (.anyRec :: ·) else none
  | '*' :: s => (parseGlob (some '*') s).map (.anySeq :: ·)
  | '[' :: '!' :: x :: s =>
    match _h : untilBracket s with
    | some (body, rest) => (parseGlob (some ']') rest).map (.except (charSpecs (x :: body)) :: ·)
    | none => none
  | ['[', '!'] => none
  | '[' :: x :: s =>
    match _h : untilBracket s with
    | some (body, rest) => (parseGlob (some ']') rest).map (.within (charSpecs (x :: body)) :: ·)
    | none => none
  | ['['] => none
  | c :: s => (parseGlob (some c) s).map (.char c :: ·)
  termination_by s => s.length
  decreasing_by
    all_goals simp only [List.length_cons]
    all_goals first
      | omega
      | (have := untilBracket_length _h; simp only at this; omega)

/-! ### Matching of names -/

/-- `MatchResult` -/
inductive MatchResult where
  | matched
  | subPatternDoesntMatch
  | entirePatternDoesntMatch
  deriving DecidableEq

/-- `in_char_specifiers` with `case_sensitive` -/
def CharSpec.has (c : Char) : CharSpec → Bool
  | .single a => c = a
  | .range a b => a ≤ c && c ≤ b

/-- The tokens that stand for one character. -/
def GlobTok.accepts (c : Char) : GlobTok → Bool
  | .char a => c = a
  | .anyChar => true
  | .within cs => cs.any (CharSpec.has c)
  | .except cs => !cs.any (CharSpec.has c)
  | .anySeq => false
  | .anyRec => false

/-- `Pattern::matches_from` without options.  The names it is called with have no separators. -/
def matchesFrom : List GlobTok → Str → MatchResult
  | [], [] => .matched
  | [], _ :: _ => .subPatternDoesntMatch
  | .anySeq :: ts, s => star (matchesFrom ts) s
  | .anyRec :: ts, s => star (matchesFrom ts) s
  | _ :: _, [] => .entirePatternDoesntMatch
  | t :: ts, c :: s => if t.accepts c then matchesFrom ts s else .subPatternDoesntMatch
where
  /-- The loop for a star: try the rest of the pattern after ever more characters. -/
  star (rest : Str → MatchResult) : Str → MatchResult
    | [] => rest []
    | c :: s => match rest (c :: s) with
      | .subPatternDoesntMatch => star rest s
      | m => m

/-- `Pattern::matches_with` -/
def globMatches (ts : List GlobTok) (s : Str) : Bool := matchesFrom ts s = .matched

/-! ### Directories -/

mutual
/-- A file or a directory. -/
inductive GlobNode where
  | file
  | dir (entries : GlobEntries)
/-- The entries of a directory. -/
inductive GlobEntries where
  | nil
  | cons (name : Str) (node : GlobNode) (rest : GlobEntries)
end

/-- `is_dir` -/
def GlobNode.isDir : GlobNode → Bool
  | .file => false
  | .dir _ => true

/-- The entry of a name. -/
def GlobEntries.find (s : Str) : GlobEntries → Option GlobNode
  | .nil => none
  | .cons name node rest => if name = s then some node else rest.find s

/-- A place in the file system: what is there, and the directories above it, nearest first. -/
structure GlobSpot where
  node : GlobNode
  up : List GlobNode

/-- The entry of a name, for `fs::metadata(path.join(name))`. -/
def GlobSpot.child (s : Str) (spot : GlobSpot) : Option GlobSpot :=
  match spot.node with
  | .file => none
  | .dir es => (es.find s).map fun n => ⟨n, spot.node :: spot.up⟩

/-- `..`; above the root is the root. -/
def GlobSpot.parent (spot : GlobSpot) : GlobSpot :=
  match spot.up with
  | [] => spot
  | n :: up => ⟨n, up⟩

/-- The path of an entry of the directory at `path`; `.` is dropped. -/
def globJoin (path : Path) (name : Str) : Path := if path = [.cur] then [.normal name] else path ++ [.normal name]

mutual
/-- Everything below, each with its name, place and path: a directory comes before what is in it. -/
def GlobNode.under (up : List GlobNode) (path : Path) : GlobNode → List (Str × GlobSpot × Path)
  | .file => []
  | .dir es => es.under (.dir es :: up) path
/-- … for the entries of a directory. -/
def GlobEntries.under (up : List GlobNode) (path : Path) : GlobEntries → List (Str × GlobSpot × Path)
  | .nil => []
  | .cons name node rest => (name, ⟨node, up⟩, globJoin path name) :: node.under up (globJoin path name) ++ rest.under up path
end

/-- The entries of a directory alone. -/
def GlobEntries.here (up : List GlobNode) (path : Path) : GlobEntries → List (Str × GlobSpot × Path)
  | .nil => []
  | .cons name node rest => (name, ⟨node, up⟩, globJoin path name) :: rest.here up path

/-! ### The walk -/

/-- `pattern_as_str`: the pattern has no wildcards. -/
def globLiteral : List GlobTok → Option Str
  | [] => some []
  | .char c :: ts => (globLiteral ts).map (c :: ·)
  | _ :: _ => none

/-- `Paths::next` and `fill_todo`, as a recursion: the paths found from `spot`, at `path`, for the components that are left.  `dirs` is `require_dir`; `deep`: the
last component before those that are left was `**`, so that the next is to match anything below. -/
def globWalk (dirs : Bool) : Bool → List (List GlobTok) → GlobSpot → Path → List Path
  | false, [], _, _ => []
  | true, [], spot, path => ((spot.node.under spot.up path).filter fun e => e.2.1.node.isDir).map fun e => e.2.2
  | deep, p :: rest, spot, path =>
    let add := fun (spot : GlobSpot) (path : Path) => if rest = [] then (if dirs && !spot.node.isDir then [] else [path]) else globWalk dirs false rest spot path
    if p = [.anyRec] then globWalk dirs true rest spot path
    else if deep then ((spot.node.under spot.up path).filter fun e => globMatches p e.1).flatMap fun e => add e.2.1 e.2.2
    else match globLiteral p with
    | some s =>
      if s = str% "." then (if spot.node.isDir then add spot path else [])
      else if s = str% ".." then (if spot.node.isDir then add spot.parent (if path = [.cur] then [.parent] else path ++ [.parent]) else [])
      else if s = [] then (if spot.node.isDir ∧ path ≠ [.cur] then add spot path else [])
      else match spot.child s with
        | some c => add c (globJoin path s)
        | none => []
    | none =>
      match spot.node with
      | .file => []
      | .dir es =>
        ((if p.head? = some (.char '.') ∧ globMatches p (str% "..") then add spot.parent (path ++ [.parent]) else [])
          ++ (if p.head? = some (.char '.') ∧ globMatches p (str% ".") then add spot path else [])
          ++ ((es.here (spot.node :: spot.up) path).filter fun e => globMatches p e.1).flatMap fun e => add e.2.1 e.2.2)

/-- `s.split_terminator('/')` -/
def splitTerminator (s : Str) : List Str :=
  let parts := splitChar '/' s
  if parts.getLast? = some [] then parts.dropLast else parts

/-- The file system, with the working directory. -/
structure GlobDisk where
  root : GlobNode
  cwd : GlobSpot

/-- `glob::glob`; `none` if the pattern is refused.  (Simplified: a pattern that begins with a slash begins at the root, with the text after the slash.) -/
def globOn (d : GlobDisk) (pattern : Str) : Option (List Path) := do
  let _ ← parseGlob none pattern
  let dirs := pattern.getLast? = some '/'
  match pattern with
  | '/' :: rest => some (globWalk dirs false (← (splitTerminator rest).mapM (parseGlob none)) ⟨d.root, []⟩ [.root])
  | _ => some (globWalk dirs false (← (splitTerminator pattern).mapM (parseGlob none)) d.cwd [.cur])

end Swc
