/-
The text on the standard output of the command line tool: `cli/src/main.rs:233-361`, with the layout that the crate comfy-table (7.1.1, without its default
features; `Cargo.lock:648-656`) gives to a table.  `README.md:90-116` and `:128-138` show two tables; `Verif/Checks/RepoTests.lean` computes both.

How wide a text is, is decided by the crate unicode-width; here it is any function on texts.  Left out: comfy-table counts widths in `u16` and breaks a
text of more than 65535 columns.
-/
import Verif.Model.CommandLine

namespace Swc

/-- The width of a text as unicode-width 0.1 gives it for ASCII (`Cargo.lock:2567-2568`): control characters count for nothing, all others for one. -/
def asciiWidth (s : Str) : Nat := s.countP fun c => 32 ≤ c.toNat

/-- A horizontal line of a table: its left end, what it is made of, its crossings with the lines between columns, and its right end. -/
structure TableRule where
  left : Char
  fill : Char
  mid : Char
  right : Char

/-- The horizontal lines that are drawn: above the table, below the header, between rows, and below the table.  The vertical lines are always `|`. -/
structure TableStyle where
  top : Option TableRule
  header : Option TableRule
  between : Option TableRule
  bottom : Option TableRule

/-- The preset of a new table (`cli/src/main.rs:312`): `ASCII_FULL`, `||--+==+|-+||++++++`. -/
def asciiFull : TableStyle where
  top := some ⟨'+', '-', '+', '+'⟩
  header := some ⟨'+', '=', '=', '+'⟩
  between := some ⟨'|', '-', '+', '|'⟩
  bottom := some ⟨'+', '-', '+', '+'⟩

/-- `cli/src/main.rs:314-316`: `ASCII_MARKDOWN`, `||  |-|||           `. -/
def asciiMarkdown : TableStyle where
  top := none
  header := some ⟨'|', '-', '|', '|'⟩
  between := none
  bottom := none

/-- The number of columns: that of the longest row. -/
def TableOut.columns (t : TableOut) : Nat := (t.header :: t.rows).foldr (fun r n => max r.length n) 0

/-- The width that a cell needs: that of its widest line, and at least one. -/
def cellWidth (wd : Str → Nat) (c : Str) : Nat := (splitChar '\n' c).foldr (fun l n => max (wd l) n) 1

/-- The width of a column: what its widest cell needs (`cli/src/main.rs:313`: `set_constraints` has no effect, because the table has no columns yet). -/
def TableOut.width (wd : Str → Nat) (t : TableOut) (j : Nat) : Nat :=
  (t.header :: t.rows).foldr (fun r n => max (match r[j]? with | some c => cellWidth wd c | none => 0) n) 0

/-- The widths of all columns. -/
def TableOut.widths (wd : Str → Nat) (t : TableOut) : List Nat := (List.range t.columns).map (t.width wd)

/-- A horizontal line. -/
def TableRule.draw (r : TableRule) (ws : List Nat) : Str :=
  [r.left] ++ [r.mid].intercalate (ws.map fun w => List.replicate (w + 2) r.fill) ++ [r.right]

/-- One line of one cell, filled up to the width of the column, and a space on both sides. -/
def padCell (wd : Str → Nat) (w : Nat) (l : Str) : Str := [' '] ++ l ++ List.replicate (w - wd l) ' ' ++ [' ']

/-- Line `i` of a row.  A cell that is missing or has fewer lines is blank. -/
def rowLine (wd : Str → Nat) (ws : List Nat) (row : List Str) (i : Nat) : Str :=
  ['|'] ++ ['|'].intercalate (ws.mapIdx fun j w => match (row[j]?.bind fun c => (splitChar '\n' c)[i]?) with
    | some l => padCell wd w l
    | none => List.replicate (w + 2) ' ') ++ ['|']

/-- The lines of a row: as many as its highest cell has. -/
def rowLines (wd : Str → Nat) (ws : List Nat) (row : List Str) : List Str :=
  (List.range (row.foldr (fun c n => max (splitChar '\n' c).length n) 1)).map (rowLine wd ws row)

/-- The rows with the lines between them. -/
def bodyLines (wd : Str → Nat) (between : Option TableRule) (ws : List Nat) : List (List Str) → List Str
  | [] => []
  | [row] => rowLines wd ws row
  | row :: rows => rowLines wd ws row ++ (between.map (·.draw ws)).toList ++ bodyLines wd between ws rows

/-- All lines of a table. -/
def TableOut.lines (wd : Str → Nat) (style : TableStyle) (t : TableOut) : List Str :=
  let ws := t.widths wd
  (style.top.map (·.draw ws)).toList ++ rowLines wd ws t.header ++ (style.header.map (·.draw ws)).toList ++ bodyLines wd style.between ws t.rows
    ++ (style.bottom.map (·.draw ws)).toList

/-- `cli/src/main.rs:353`: `table.to_string()`. -/
def TableOut.text (wd : Str → Nat) (t : TableOut) (markdown : Bool) : Str :=
  ['\n'].intercalate (t.lines wd (if markdown then asciiMarkdown else asciiFull))

/-- `cli/src/main.rs:356-362` `print`: what of it goes to the standard output.  With `--verbose` the message is logged, that is, written to the standard
error output. -/
def say (verbose : Bool) (msg : Str) : Str := if verbose then [] else msg ++ str% "\n"

/-- `cli/src/main.rs:233-248` and the notices of `:258,:308`: what `print_changes` writes. -/
def Shown.text (wd : Str → Nat) (verbose : Bool) : Shown → Str
  | .nothing => say verbose (str% "No changes found.") ++ str% "\n"
  | .csv t => t ++ str% "\n"
  | .table t markdown => t.text wd markdown ++ str% "\n"

/-- `cli/src/main.rs:178-230` `main`: everything that is written to the standard output.  Nothing else in the program writes there.  If `clap` ends the
program (`none`; among others for `--help`), what it writes is not modelled. -/
def cliStdout {W : World} (wd : Str → Nat) (b : Build) (ho : HashOrder) (rx : RegexEngine) (env : Env) (penv : PrintEnv) (args : List Str) (s : Run W) :
    Option Str :=
  (readCommandLine b args).map fun (verbose, cmd) => match cmd with
    | .parseFiles files =>
      let (first, second) := cliParseFiles env (W.fs s.state) files
      say verbose first ++ match second with
        | .ok t => say verbose t
        | _ => []
    | cmd => match (cmd.run (W := W) b ho rx env penv s).1 with
      | .ok (.inl shown) => shown.text wd verbose
      | _ => []

end Swc
