/-
Independent specification of HTML: a tokenizer after the HTML standard (13.2.5), and readers for inputs, lists of choices, messages and tables.

Simplifications: the contents of `script`, `style`, `title` and `textarea` are read like all other text (on the pages they contain no markup); of the
character references only the four named ones for markup and the decimal ones are known, and only with a semicolon; line ends and null characters
are not normalised; end of input inside a tag drops the tag.
-/
import Verif.Spec.Decimal
import Verif.Spec.Query
import Verif.Spec.Output
import Verif.Model.Html

namespace Swc.Spec

open Swc

/-- What a text consists of. -/
inductive Token where
  | char (c : Char)
  | start (name : Str) (attrs : List (Str × Str))
  | stop (name : Str)
  deriving DecidableEq

/-- White space in tags. -/
def isBlank (c : Char) : Bool := c = ' ' || c = '\n' || c = '\t' || c = Char.ofNat 12 || c = '\r'

/-- The tag being read. -/
structure Tag where
  closing : Bool
  name : Str
  attrs : List (Str × Str)
  deriving DecidableEq

/-- Another attribute; of several with the same name the first one counts. -/
def Tag.add (t : Tag) (n v : Str) : Tag := if t.attrs.any (·.1 = n) then t else { t with attrs := t.attrs ++ [(n, v)] }

/-- The tag is complete. -/
def Tag.token (t : Tag) : Token := if t.closing then .stop t.name else .start t.name t.attrs

/-- Where character references are resolved: in text, and in the value of an attribute, with or without quotes. -/
inductive Place where
  | data
  | quoted (q : Char) (t : Tag) (n v : Str)
  | bare (t : Tag) (n v : Str)
  deriving DecidableEq

/-- States of the tokenizer. -/
inductive HState where
  | text (p : Place)
  | ref (p : Place) (buf : Str)
  | tagOpen
  | endOpen
  | tagName (t : Tag)
  | beforeName (t : Tag)
  | attrName (t : Tag) (n : Str)
  | afterName (t : Tag) (n : Str)
  | beforeValue (t : Tag) (n : Str)
  | afterValue (t : Tag)
  | selfClose (t : Tag)
  | bang
  | bangDash
  | comment (dashes : Nat)
  | bogus
  deriving DecidableEq

/-- Characters that are not markup. -/
def Place.put : Place → Str → Place × List Token
  | .data, s => (.data, s.map .char)
  | .quoted q t n v, s => (.quoted q t n (v ++ s), [])
  | .bare t n v, s => (.bare t n (v ++ s), [])

/-- What a character reference stands for. -/
def resolve (buf : Str) : Str :=
  if buf = str% "quot" then ['"']
  else if buf = str% "amp" then ['&']
  else if buf = str% "lt" then ['<']
  else if buf = str% "gt" then ['>']
  else match buf with
    | '#' :: ds => match readNat ds with
      | some n => [Char.ofNat n]
      | none => '&' :: buf ++ [';']
    | _ => '&' :: buf ++ [';']

/-- A tag ends here. -/
def closeTag (t : Tag) : HState × List Token := (.text .data, [t.token])

/-- A character other than `&` where references are resolved. -/
def stepPlain (p : Place) (c : Char) : HState × List Token :=
  match p with
  | .data => if c = '<' then (.tagOpen, []) else (.text .data, [.char c])
  | .quoted q t n v => if c = q then (.afterValue (t.add n v), []) else (.text (.quoted q t n (v ++ [c])), [])
  | .bare t n v =>
    if isBlank c then (.beforeName (t.add n v), [])
    else if c = '>' then closeTag (t.add n v)
    else (.text (.bare t n (v ++ [c])), [])

/-- Any character where references are resolved. -/
def stepText (p : Place) (c : Char) : HState × List Token := if c = '&' then (.ref p [], []) else stepPlain p c

/-- Before the name of an attribute. -/
def stepName (t : Tag) (c : Char) : HState × List Token :=
  if isBlank c then (.beforeName t, [])
  else if c = '/' then (.selfClose t, [])
  else if c = '>' then closeTag t
  else (.attrName t [c.toLower], [])

/-- One character. -/
def stepHtml : HState → Char → HState × List Token
  | .text p, c => stepText p c
  | .ref p buf, c =>
    if c = ';' then let r := p.put (resolve buf); (.text r.1, r.2)
    else if c.isAlphanum || c = '#' then (.ref p (buf ++ [c]), [])
    else let r := p.put ('&' :: buf); let n := stepText r.1 c; (n.1, r.2 ++ n.2)
  | .tagOpen, c =>
    if c = '!' then (.bang, [])
    else if c = '?' then (.bogus, [])
    else if c = '/' then (.endOpen, [])
    else if c.isAlpha then (.tagName ⟨false, [c.toLower], []⟩, [])
    else let n := stepText .data c; (n.1, .char '<' :: n.2)
  | .endOpen, c =>
    if c.isAlpha then (.tagName ⟨true, [c.toLower], []⟩, [])
    else if c = '>' then (.text .data, [])
    else (.bogus, [])
  | .tagName t, c =>
    if isBlank c then (.beforeName t, [])
    else if c = '/' then (.selfClose t, [])
    else if c = '>' then closeTag t
    else (.tagName { t with name := t.name ++ [c.toLower] }, [])
  | .beforeName t, c => stepName t c
  | .attrName t n, c =>
    if isBlank c then (.afterName t n, [])
    else if c = '/' then (.selfClose (t.add n []), [])
    else if c = '>' then closeTag (t.add n [])
    else if c = '=' then (.beforeValue t n, [])
    else (.attrName t (n ++ [c.toLower]), [])
  | .afterName t n, c =>
    if isBlank c then (.afterName t n, [])
    else if c = '/' then (.selfClose (t.add n []), [])
    else if c = '=' then (.beforeValue t n, [])
    else if c = '>' then closeTag (t.add n [])
    else (.attrName (t.add n []) [c.toLower], [])
  | .beforeValue t n, c =>
    if isBlank c then (.beforeValue t n, [])
    else if c = '"' || c = '\'' then (.text (.quoted c t n []), [])
    else if c = '>' then closeTag (t.add n [])
    else stepText (.bare t n []) c
  | .afterValue t, c => stepName t c
  | .selfClose t, c => if c = '>' then closeTag t else stepName t c
  | .bang, c => if c = '-' then (.bangDash, []) else if c = '>' then (.text .data, []) else (.bogus, [])
  | .bangDash, c => if c = '-' then (.comment 0, []) else if c = '>' then (.text .data, []) else (.bogus, [])
  | .comment k, c => if c = '-' then (.comment (k + 1), []) else if c = '>' && 2 ≤ k then (.text .data, []) else (.comment 0, [])
  | .bogus, c => if c = '>' then (.text .data, []) else (.bogus, [])

/-- A whole text. -/
def feed : HState → Str → HState × List Token
  | st, [] => (st, [])
  | st, c :: s => let r := stepHtml st c; let q := feed r.1 s; (q.1, r.2 ++ q.2)

/-- The tokens of a page. -/
def tokens (s : Str) : List Token := (feed (.text .data) s).2

/-- The first element with an identifier: name and attributes. -/
def firstWith (ts : List Token) (id : Str) : Option (Str × List (Str × Str)) :=
  ts.findSome? fun
    | .start name attrs => if attrs.lookup (str% "id") = some id then some (name, attrs) else none
    | _ => none

/-- The text in an input. -/
def valueOf (ts : List Token) (id : Str) : Option Str :=
  (firstWith ts id).bind fun p => if p.1 = str% "input" then p.2.lookup (str% "value") else none

/-- Whether a box is checked. -/
def checkedOf (ts : List Token) (id : Str) : Option Bool :=
  (firstWith ts id).bind fun p =>
    if p.1 = str% "input" ∧ p.2.lookup (str% "type") = some (str% "checkbox") then some (p.2.lookup (str% "checked")).isSome else none

/-- The tokens after the first element with an identifier. -/
def afterId (id : Str) : List Token → List Token
  | [] => []
  | .start _ attrs :: ts => if attrs.lookup (str% "id") = some id then ts else afterId id ts
  | _ :: ts => afterId id ts

/-- The start of an option: its value and whether it is selected. -/
def optionOf : Token → Option (Str × Bool)
  | .start name attrs =>
    if name = str% "option" then some ((attrs.lookup (str% "value")).getD [], (attrs.lookup (str% "selected")).isSome) else none
  | _ => none

/-- The choices of a list: value and whether it is selected. -/
def choices (ts : List Token) (id : Str) : List (Str × Bool) :=
  ((afterId id ts).takeWhile (· ≠ .stop (str% "select"))).filterMap optionOf

/-- The choice shown: the last selected one, or the first one if there is none. -/
def chosen (ts : List Token) (id : Str) : Option Str :=
  match ((choices ts id).filter (·.2)).getLast? with
  | some p => some p.1
  | none => (choices ts id).head?.map (·.1)

/-- Value and text of every option; `cur` is the option being read. -/
def optionsIn (cur : Option (Str × Str)) : List Token → List (Str × Str)
  | [] => []
  | .char c :: ts => optionsIn (cur.map fun p => (p.1, p.2 ++ [c])) ts
  | .start name attrs :: ts => optionsIn (if name = str% "option" then some ((attrs.lookup (str% "value")).getD [], []) else cur) ts
  | .stop name :: ts => if name = str% "option" then cur.toList ++ optionsIn none ts else optionsIn cur ts

/-- Value and text of the choices of a list. -/
def offers (ts : List Token) (id : Str) : List (Str × Str) := optionsIn none ((afterId id ts).takeWhile (· ≠ .stop (str% "select")))

/-- The start of an element with this name. -/
def isStart (name : Str) : Token → Bool
  | .start n _ => n = name
  | _ => false

/-- The characters among tokens. -/
def charsOf (ts : List Token) : Str :=
  ts.filterMap fun
    | .char c => some c
    | _ => none

/-- The text of the first element with this name. -/
def textOf (ts : List Token) (name : Str) : Str :=
  charsOf (((ts.dropWhile fun t => !isStart name t).drop 1).takeWhile (· ≠ .stop name))

/-- A tag. -/
def isTag : Token → Bool
  | .char _ => false
  | _ => true

/-- Splitting at a character, like `split` of JavaScript for one character. -/
def splitAtChar (sep : Char) (acc : Str) : Str → List Str
  | [] => [acc]
  | c :: s => if c = sep then acc :: splitAtChar sep [] s else splitAtChar sep (acc ++ [c]) s

/-- The controls show the arguments of a comparison. -/
structure Shows (ts : List Token) (a : CompareArgs) : Prop where
  old : valueOf ts (str% "input_old") = some a.old
  new : valueOf ts (str% "input_new") = some a.new
  pathPattern : valueOf ts (str% "input_path_pattern") = some a.pathPattern
  pallet : valueOf ts (str% "input_pallet") = some (a.pallet.getD (str% ".*"))
  extrinsic : valueOf ts (str% "input_extrinsic") = some (a.extrinsic.getD (str% ".*"))
  threshold : ∃ v, valueOf ts (str% "input_threshold") = some v ∧ readNat v = some a.threshold
  unit : ∃ v, chosen ts (str% "select_unit") = some v ∧ ReadsDimension v a.unit
  method : ∃ v, chosen ts (str% "select_method") = some v ∧ ReadsMethod v a.method
  ignoreErrors : checkedOf ts (str% "checkbox_ignore_errors") = some a.ignoreErrors
  gitPull : checkedOf ts (str% "checkbox_git_pull") = some (a.gitPull.getD true)

/-- A cell of a table: attributes, the text outside links, the targets of the links, and the styles of the paragraphs in it. -/
structure Cell where
  attrs : List (Str × Str)
  text : Str
  links : List Str
  styles : List Str
  deriving DecidableEq

/-- State of the reader of tables: the rows that are complete, the current row, the current cell, whether a link is open. -/
structure TableState where
  done : List (List (Str × Str) × List Cell)
  row : Option (List (Str × Str) × List Cell)
  cell : Option Cell
  inLink : Bool
  deriving DecidableEq

/-- One token. -/
def stepTable (s : TableState) : Token → TableState
  | .char c => if s.inLink then s else { s with cell := s.cell.map fun x => { x with text := x.text ++ [c] } }
  | .start name attrs =>
    if name = str% "tr" then { s with row := some (attrs, []) }
    else if name = str% "td" then { s with cell := some ⟨attrs, [], [], []⟩ }
    else if name = str% "a" then
      { s with inLink := true, cell := s.cell.map fun x => { x with links := x.links ++ (attrs.lookup (str% "href")).toList } }
    else if name = str% "p" then { s with cell := s.cell.map fun x => { x with styles := x.styles ++ (attrs.lookup (str% "style")).toList } }
    else s
  | .stop name =>
    if name = str% "td" then { s with row := s.row.map fun r => (r.1, r.2 ++ s.cell.toList), cell := none }
    else if name = str% "tr" then { s with done := s.done ++ s.row.toList, row := none }
    else if name = str% "a" then { s with inLink := false }
    else s

/-- The rows of the body of the table with an identifier. -/
def tableRows (ts : List Token) (id : Str) : List (List (Str × Str) × List Cell) :=
  ((((afterId id ts).dropWhile (· ≠ .start (str% "tbody") [])).takeWhile (· ≠ .stop (str% "tbody"))).foldl stepTable ⟨[], none, none, false⟩).done

/-- Text without the white space around it. -/
def strip (s : Str) : Str := ((s.dropWhile isBlank).reverse.dropWhile isBlank).reverse

/-- The text before each line break, without the white space around it; `acc` is the text so far. -/
def breakLines (acc : Str) : List Token → List Str
  | [] => []
  | .char c :: ts => breakLines (acc ++ [c]) ts
  | .start name _ :: ts => if name = str% "br" then strip acc :: breakLines [] ts else breakLines acc ts
  | .stop _ :: ts => breakLines acc ts

/-- The lines in the element with an identifier; none if there is no such element. -/
def linesOf (ts : List Token) (id : Str) : List Str := breakLines [] ((afterId id ts).takeWhile (· ≠ .stop (str% "div")))

/-- A whole number, perhaps negative. -/
def readInt : Str → Option ℤ
  | '-' :: s => (readNat s).map fun n => -(n : ℤ)
  | s => (readNat s).map fun n => (n : ℤ)

/-- The text of a weight below 2^128, `-` if there is none. -/
def ShownWeight (unit : Dimension) (v : Option Nat) (text : Str) : Prop :=
  match v with
  | none => text = str% "-"
  | some v => v < 2 ^ 128 → GoodRendering (unitTable unit) v text

/-- Text and styles of a relative change. -/
def ShownPercent (k : RelativeChange) (p : F64) (text : Str) (styles : List Str) : Prop :=
  match k with
  | .unchanged => text = str% "Unchanged" ∧ styles = [str% "color:gray"]
  | .added => text = str% "Added" ∧ styles = [str% "color:orange"]
  | .removed => text = str% "Removed" ∧ styles = [str% "color:orange"]
  | .changed => match p with
    | .nan => text = str% "NaN" ∧ styles = []
    | .pinf => text = str% "+inf%" ∧ styles = [str% "color:red"]
    | .ninf => text = str% "-inf%" ∧ styles = [str% "color:green"]
    | .fin q =>
      (q < 0 → styles = [str% "color:green"] ∧ ∃ num, text = str% "-" ++ num ++ str% "%" ∧ ShowsQuantity (-q) num) ∧
      (0 < q → styles = [str% "color:red"] ∧ ∃ num, text = str% "+" ++ num ++ str% "%" ∧ ShowsQuantity q num) ∧
      (q = 0 → styles = [] ∧ text = str% "0")

/-- Text and styles of an absolute change between weights below 2^127. -/
def ShownDifference (unit : Dimension) (c : TermChange) (text : Str) (styles : List Str) : Prop :=
  match c.change with
  | .unchanged => text = str% "Unchanged" ∧ styles = [str% "color:gray"]
  | .added => text = str% "Added" ∧ styles = [str% "color:orange"]
  | .removed => text = str% "Removed" ∧ styles = [str% "color:orange"]
  | .changed => ∀ o n, c.oldV = some o → c.newV = some n → o < 2 ^ 127 → n < 2 ^ 127 →
    (n < o → styles = [str% "color:green"] ∧ ∃ num, text = str% "-" ++ num ∧ GoodRendering (unitTable unit) (o - n) num) ∧
    (o < n → styles = [str% "color:red"] ∧ ∃ num, text = str% "+" ++ num ∧ GoodRendering (unitTable unit) (n - o) num) ∧
    (o = n → styles = [] ∧ text = str% "0")

/-- The cell of an equation: a link to the function at that revision, and the printed equation. -/
def ShownEquation (org repo rev file name : Str) (t : Option SimpleTerm) (cell : Cell) : Prop :=
  match t with
  | none => strip cell.text = str% "-" ∧ cell.links = []
  | some t => strip cell.text = strip (Term.display Dimension.fmtScalar t) ∧
    cell.links = [str% "https://github.com/" ++ org ++ str% "/" ++ repo ++ str% "/tree/" ++ rev ++ str% "/" ++ file ++ str% "#:~:text=fn " ++ name]

/-- A row of the table shows the numbers `c` of the entry `e`. -/
structure RowShows (org : Str) (a : CompareArgs) (e : ExtrinsicDiff) (c : TermChange) (attrs : List (Str × Str)) (c0 c1 c2 c3 c4 c5 c6 c7 c8 : Cell) : Prop where
  id : attrs.lookup (str% "id") = some (e.file ++ str% "." ++ e.name)
  file : strip c0.text = strip e.file
  name : strip c1.text = strip e.name
  link : c1.links = [str% "#" ++ (e.file ++ str% "." ++ e.name)]
  warned : c1.attrs.lookup (str% "class") = some (str% "text-warning") ↔ ∃ m, e.change = .warning c m
  oldKey : ((c2.attrs.lookup (str% "data-order")).bind readNat) = some (c.oldV.getD 0)
  old : ShownWeight a.unit c.oldV (strip c2.text)
  newKey : ((c3.attrs.lookup (str% "data-order")).bind readNat) = some (c.newV.getD 0)
  new : ShownWeight a.unit c.newV (strip c3.text)
  relKey : ((c4.attrs.lookup (str% "data-order")).bind readInt) = some (orderPercent c)
  rel : ShownPercent c.change c.percent (strip c4.text) c4.styles
  absKey : ∀ o n, c.change = .changed → c.oldV = some o → c.newV = some n → o < 2 ^ 127 → n < 2 ^ 127 →
    ((c5.attrs.lookup (str% "data-order")).bind readInt) = some ((n : ℤ) - o)
  absOther : ∃ z, ((c5.attrs.lookup (str% "data-order")).bind readInt) = some z ∧ (c.change = .added → z = 2 ^ 127 - 1) ∧
    (c.change = .removed → z = -2 ^ 127) ∧ (c.change = .unchanged → z = 0)
  abs : ShownDifference a.unit c (strip c5.text) c5.styles
  oldTerm : ShownEquation org a.repo a.old e.file e.name c.old c6
  newTerm : ShownEquation org a.repo a.new e.file e.name c.new c7
  scope : strip c8.text = strip (Scope.display (Term.display Dimension.fmtScalar) c.scope)

/-- Names of repositories that can be values without quotes. -/
def BareNames (repos : List Str) : Prop := ∀ r ∈ repos, r ≠ [] ∧ ∀ c ∈ r, isBlank c = false

/-- Text that may be put anywhere in a page without escaping: no `<`, `&` or `"`. -/
def Inert (s : Str) : Prop := ∀ c ∈ s, c ≠ '<' ∧ c ≠ '&' ∧ c ≠ '"'

/-- Everything that the page inserts without escaping is inert. -/
structure InertEntry (e : ExtrinsicDiff) : Prop where
  file : Inert e.file
  name : Inert e.name
  error : ∀ m, e.change = .failed m → Inert m
  warning : ∀ c m, e.change = .warning c m → Inert m
  old : ∀ c t, numbers e.change = some c → c.old = some t → ∀ x, Occurs x t → Inert x
  new : ∀ c t, numbers e.change = some c → c.new = some t → ∀ x, Occurs x t → Inert x

end Swc.Spec
