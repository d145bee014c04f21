/-
A reader for the part of Rust that weight files are written in: text to tokens, tokens to token trees, token trees to the syntax tree of
`Verif.Model.Syntax`.

This is not code of the repository.  It stands for `syn::parse_file` (and `syn::parse2` for the tokens of a macro call) on the texts it
accepts, see `core/src/parse/pallet.rs:110`, `core/src/parse/storage.rs:65`, `core/src/parse/overhead.rs:21`.  It is partial: what it does not
know it refuses, `syn` may accept it.  Items that the parsers skip (`use`, `struct`, `trait`, functions outside of an `impl`) are only
delimited, not checked; so it may accept a text that is not Rust.
-/
import Verif.Model.Syntax

namespace Swc

/-! ### Tokens -/

/-- The three kinds of brackets. -/
inductive Delim where
  | paren
  | brace
  | bracket
  deriving DecidableEq

/-- Punctuation.  Only `::`, `->` and `=>` are joined. -/
inductive Sym where
  | path
  | arrow
  | fatArrow
  | semi
  | comma
  | dot
  | colon
  | eq
  | star
  | plus
  | lt
  | gt
  | hash
  | bang
  | amp
  | question
  | other (c : Char)
  deriving DecidableEq

/-- A token.  `int` carries `base10_digits()`, `lit` the spelling of any other literal, `doc` the text of a doc comment (`inner`: `//!`, `/*!`). -/
inductive RTok where
  | ident (s : Str)
  | int (digits : Str)
  | lit (text : Str)
  | lifetime (name : Str)
  | doc (inner : Bool) (text : Str)
  | sym (s : Sym)
  | opn (d : Delim)
  | cls (d : Delim)
  deriving DecidableEq

namespace RustText

/-- White space between tokens (ASCII). -/
def blank (c : Char) : Bool := c == ' ' || c == '\t' || c == '\n' || c == '\r'

/-- First character of an identifier (ASCII). -/
def identStart (c : Char) : Bool := c.isAlpha || c == '_'

/-- Character of an identifier or number (ASCII). -/
def wordChar (c : Char) : Bool := c.isAlphanum || c == '_'

/-- A digit or an underscore. -/
def numChar (c : Char) : Bool := c.isDigit || c == '_'

/-- The suffixes of integer literals. -/
def intSuffix (s : Str) : Bool :=
  s ∈ [[], str% "u8", str% "u16", str% "u32", str% "u64", str% "u128", str% "usize", str% "i8", str% "i16", str% "i32", str% "i64", str% "i128",
    str% "isize"]

/-- The digits without leading zeros, as a big integer is printed. -/
def trimZeros (s : Str) : Str :=
  match s.dropWhile (· == '0') with
  | [] => str% "0"
  | d => d

/-- The token of a word that starts with a digit: an integer with an optional suffix.  Floats without a point, other bases and other suffixes
are refused. -/
def numberTok (w : Str) : Option RTok :=
  if intSuffix (w.dropWhile numChar) then some (.int (trimZeros (stripUnderscore (w.takeWhile numChar)))) else none

/-- The rest of a string literal up to and including the closing quote, and what follows it. -/
def stringEnd : Str → Option (Str × Str)
  | [] => none
  | '"' :: r => some (['"'], r)
  | '\\' :: c :: r => (stringEnd r).map (fun p => ('\\' :: c :: p.1, p.2))
  | c :: r => (stringEnd r).map (fun p => (c :: p.1, p.2))

/-- What follows the end of a block comment that is open `depth + 1` times. -/
def commentEnd : Nat → Str → Option Str
  | _, [] => none
  | 0, '*' :: '/' :: r => some r
  | n + 1, '*' :: '/' :: r => commentEnd n r
  | n, '/' :: '*' :: r => commentEnd (n + 1) r
  | n, _ :: r => commentEnd n r

/-- Whether what follows `/*` makes it a doc comment. -/
def blockDoc : Str → Bool
  | '!' :: _ => true
  | '*' :: '*' :: _ => false
  | '*' :: '/' :: _ => false
  | '*' :: _ => true
  | _ => false

/-- A block comment, given what follows `/*`: the token if it is a doc comment, and what follows its end. -/
def blockComment (s : Str) : Option (List RTok × Str) :=
  if blockDoc s then
    (commentEnd 0 s.tail).map (fun r => ([.doc (s.head? = some '!') (s.tail.take (s.tail.length - r.length - 2))], r))
  else (commentEnd 0 s).map (fun r => ([], r))

/-- The part of the text before the next line break. -/
def line (s : Str) : Str := s.takeWhile (· != '\n')

/-- A carriage return at the end of a line does not belong to a doc comment. -/
def chomp (s : Str) : Str := if s.getLast? = some '\r' then s.dropLast else s

/-- The token of a line comment, given what follows the first two slashes; none for a plain comment. -/
def lineComment : Str → List RTok
  | '/' :: '/' :: _ => []
  | '/' :: r => [.doc false (chomp r)]
  | '!' :: r => [.doc true (chomp r)]
  | _ => []

/-- Punctuation of one character. -/
def punct (c : Char) : Option Sym :=
  if c = ';' then some .semi
  else if c = ',' then some .comma
  else if c = '.' then some .dot
  else if c = ':' then some .colon
  else if c = '=' then some .eq
  else if c = '*' then some .star
  else if c = '+' then some .plus
  else if c = '<' then some .lt
  else if c = '>' then some .gt
  else if c = '#' then some .hash
  else if c = '!' then some .bang
  else if c = '&' then some .amp
  else if c = '?' then some .question
  else if c ∈ (str% "~@$%^-|/") then some (.other c)
  else none

/-- The token of a bracket. -/
def bracketTok (c : Char) : Option RTok :=
  if c = '(' then some (.opn .paren)
  else if c = ')' then some (.cls .paren)
  else if c = '{' then some (.opn .brace)
  else if c = '}' then some (.cls .brace)
  else if c = '[' then some (.opn .bracket)
  else if c = ']' then some (.cls .bracket)
  else none

/-- A word that starts with a letter or underscore.  Raw identifiers and literals with a prefix are refused. -/
def lexWord (c : Char) (s : Str) : Option (List RTok × Str) :=
  match s.dropWhile wordChar with
  | [] => some ([.ident (c :: s.takeWhile wordChar)], [])
  | d :: r => if d = '"' ∨ d = '\'' ∨ d = '#' then none else some ([.ident (c :: s.takeWhile wordChar)], d :: r)

/-- A word that starts with a digit.  A point after it belongs to it if a digit follows; before another point, a letter, an underscore or
white space it does not; otherwise the text is refused. -/
def lexNumber (c : Char) (s : Str) : Option (List RTok × Str) :=
  let w := c :: s.takeWhile wordChar
  match s.dropWhile wordChar with
  | '.' :: d :: r =>
    if d.isDigit then some ([.lit (w ++ '.' :: d :: r.takeWhile wordChar)], r.dropWhile wordChar)
    else if d = '.' ∨ identStart d then (numberTok w).map (fun t => ([t], '.' :: d :: r))
    else none
  | r => (numberTok w).map (fun t => ([t], r))

/-- A comment, a literal in quotes, a lifetime or punctuation. -/
def lexOther (c : Char) (s : Str) : Option (List RTok × Str) :=
  if c = '/' ∧ s.head? = some '/' then some (lineComment (line s.tail), s.tail.dropWhile (· != '\n'))
  else if c = '/' ∧ s.head? = some '*' then blockComment s.tail
  else if c = ':' ∧ s.head? = some ':' then some ([.sym .path], s.tail)
  else if c = '-' ∧ s.head? = some '>' then some ([.sym .arrow], s.tail)
  else if c = '=' ∧ s.head? = some '>' then some ([.sym .fatArrow], s.tail)
  else if c = '"' then (stringEnd s).map (fun p => ([.lit ('"' :: p.1)], p.2))
  else if c = '\'' then
    match s with
    | d :: r =>
      if d ≠ '\\' ∧ r.head? = some '\'' then some ([.lit ['\'', d, '\'']], r.tail)
      else if identStart d then some ([.lifetime (d :: r.takeWhile wordChar)], r.dropWhile wordChar)
      else none
    | [] => none
  else (punct c).map (fun y => ([.sym y], s))

/-- One step over a text that starts with `c`: the tokens found (at most one) and the rest. -/
def lexStep (c : Char) (s : Str) : Option (List RTok × Str) :=
  if blank c then some ([], s)
  else if identStart c then lexWord c s
  else if c.isDigit then lexNumber c s
  else match bracketTok c with
    | some t => some ([t], s)
    | none => lexOther c s

/-- The tokens of a text; every step consumes at least one character. -/
def lexN : Nat → Str → Option (List RTok)
  | _, [] => some []
  | 0, _ :: _ => none
  | n + 1, c :: s => do
    let (t, r) ← lexStep c s
    let ts ← lexN n r
    some (t ++ ts)

/-- The tokens of a text. -/
def lex (s : Str) : Option (List RTok) := lexN s.length s

end RustText

/-! ### Token trees -/

/-- A token or a bracketed list of token trees. -/
inductive RTree where
  | tok (t : RTok)
  | group (d : Delim) (ts : List RTree)

namespace RustText

/-- Match the brackets: the trees of the innermost open bracket so far (reversed), and those of the brackets around it. -/
def treesGo : List RTok → List RTree → List (Delim × List RTree) → Option (List RTree)
  | [], cur, [] => some cur.reverse
  | [], _, _ :: _ => none
  | .opn d :: r, cur, st => treesGo r [] ((d, cur) :: st)
  | .cls d :: r, cur, (d', up) :: st => if d = d' then treesGo r (.group d cur.reverse :: up) st else none
  | .cls _ :: _, _, [] => none
  | t :: r, cur, st => treesGo r (.tok t :: cur) st

/-- The token trees of a list of tokens. -/
def trees (ts : List RTok) : Option (List RTree) := treesGo ts [] []

/-! ### Paths and types -/

/-- Words that are no identifiers in an expression, a type or a name. -/
def keyword (s : Str) : Bool :=
  s ∈ [str% "as", str% "async", str% "await", str% "break", str% "const", str% "continue", str% "dyn", str% "else", str% "enum", str% "extern",
    str% "false", str% "fn", str% "for", str% "if", str% "impl", str% "in", str% "let", str% "loop", str% "match", str% "mod", str% "move",
    str% "mut", str% "pub", str% "ref", str% "return", str% "static", str% "struct", str% "trait", str% "true", str% "type", str% "unsafe",
    str% "use", str% "where", str% "while", str% "yield", str% "abstract", str% "become", str% "box", str% "do", str% "final", str% "macro",
    str% "override", str% "priv", str% "typeof", str% "unsized", str% "virtual", str% "try", str% "_"]

/-- Skip generic arguments, `depth` angle brackets being open. -/
def skipAngles : Nat → List RTree → Option (List RTree)
  | 0, r => some r
  | _ + 1, [] => none
  | n + 1, .tok (.sym .lt) :: r => skipAngles (n + 2) r
  | n + 1, .tok (.sym .gt) :: r => skipAngles n r
  | n + 1, _ :: r => skipAngles (n + 1) r

/-- Generic parameters or arguments directly after a name or `impl`, if there are any. -/
def skipGenerics : List RTree → Option (List RTree)
  | .tok (.sym .lt) :: r => skipAngles 1 r
  | r => some r

/-- Generic arguments in an expression, `::<…>`, if there are any. -/
def skipTurbofish : List RTree → Option (List RTree)
  | .tok (.sym .path) :: .tok (.sym .lt) :: r => skipAngles 1 r
  | r => some r

/-- A path, `generics` skipping the arguments of a segment. -/
def pathAt (generics : List RTree → Option (List RTree)) : Nat → List RTree → Option (List Str × List RTree)
  | 0, _ => none
  | n + 1, .tok (.ident x) :: r =>
    if keyword x then none
    else match generics r with
      | none => none
      | some (.tok (.sym .path) :: r) => (pathAt generics n r).map (fun p => (x :: p.1, p.2))
      | some r => some ([x], r)
  | _ + 1, _ => none

/-- Number of elements of a comma separated list; `open`: an element has begun. -/
def commas : Bool → List RTree → Nat
  | inElem, [] => if inElem then 1 else 0
  | _, .tok (.sym .comma) :: r => commas false r + 1
  | _, _ :: r => commas true r

/-- A type: a tuple, a path, or a reference, slice or array.  Function types, trait objects and qualified paths are refused. -/
def typeAt : Nat → List RTree → Option (Ty × List RTree)
  | 0, _ => none
  | _ + 1, .group .paren [] :: r => some (.tuple 0, r)
  | _ + 1, .group .paren ts :: r =>
    some (if ts.any (fun | .tok (.sym .comma) => true | _ => false) then .tuple (commas false ts) else .other, r)
  | _ + 1, .group .bracket _ :: r => some (.other, r)
  | n + 1, .tok (.sym .path) :: r => (pathAt skipGenerics (n + 1) r).map (fun p => (.path true p.1, p.2))
  | n + 1, .tok (.sym .amp) :: .tok (.lifetime _) :: r => (typeAt n r).map (fun p => (.other, p.2))
  | n + 1, .tok (.sym .amp) :: r => (typeAt n r).map (fun p => (.other, p.2))
  | n + 1, r => (pathAt skipGenerics (n + 1) r).map (fun p => (.path false p.1, p.2))

/-! ### Expressions -/

/-- The operator of a product. -/
def mulOp : Sym → Option BinOp
  | .star => some .mul
  | .other c => if c = '/' ∨ c = '%' then some .other else none
  | _ => none

/-- The operator of a sum. -/
def addOp : Sym → Option BinOp
  | .plus => some .add
  | .other c => if c = '-' then some .other else none
  | _ => none

mutual

/-- The elements of a comma separated list of expressions, and whether it ends with a comma. -/
def exprList : Nat → List RTree → Option (List Expr × Bool)
  | 0, _ => none
  | _ + 1, [] => some ([], false)
  | n + 1, ts =>
    match sumAt n ts with
    | some (e, []) => some ([e], false)
    | some (e, [.tok (.sym .comma)]) => some ([e], true)
    | some (e, .tok (.sym .comma) :: r) => (exprList n r).map (fun p => (e :: p.1, p.2))
    | _ => none

/-- The fields of a struct expression; their doc comments and attributes are skipped. -/
def fieldList : Nat → List RTree → Option (List (Option Str × Expr))
  | 0, _ => none
  | _ + 1, [] => some []
  | n + 1, .tok (.doc false _) :: ts => fieldList n ts
  | n + 1, .tok (.sym .hash) :: .group .bracket _ :: ts => fieldList n ts
  | n + 1, .tok (.ident x) :: .tok (.sym .colon) :: ts =>
    if keyword x then none
    else match sumAt n ts with
      | some (e, []) => some [(some x, e)]
      | some (e, .tok (.sym .comma) :: r) => (fieldList n r).map (fun l => (some x, e) :: l)
      | _ => none
  | _ + 1, _ => none

/-- A literal, an expression in parentheses, a path or a struct expression. -/
def atomAt : Nat → List RTree → Option (Expr × List RTree)
  | 0, _ => none
  | _ + 1, .tok (.int d) :: r => some (.lit (.int d), r)
  | _ + 1, .tok (.lit _) :: r => some (.lit .other, r)
  | n + 1, .group .paren ts :: r =>
    match exprList n ts with
    | none => none
    | some ([e], false) => some (.paren e, r)
    | some _ => some (.other, r)
  | n + 1, .tok (.ident x) :: r =>
    match pathAt skipTurbofish (r.length + 1) (.tok (.ident x) :: r) with
    | none => none
    | some (p, .group .brace ts :: r) => (fieldList n ts).map (fun fs => (.struct p fs, r))
    | some (p, r) => some (.path p, r)
  | _ + 1, _ => none

/-- What follows an atom: method calls, calls, fields. -/
def postfixAt : Nat → Expr → List RTree → Option (Expr × List RTree)
  | 0, _, _ => none
  | n + 1, e, .group .paren ts :: r =>
    match exprList n ts with
    | none => none
    | some (l, t) => postfixAt n (.call e l t) r
  | n + 1, e, .tok (.sym .dot) :: .tok (.ident m) :: r =>
    match skipTurbofish r with
    | none => none
    | some (.group .paren ts :: r) =>
      match exprList n ts with
      | none => none
      | some (l, t) => postfixAt n (.methodCall e m l t) r
    | some r => postfixAt n .other r
  | n + 1, _, .tok (.sym .dot) :: .tok (.int _) :: r => postfixAt n .other r
  | _ + 1, _, .tok (.sym .dot) :: _ => none
  | n + 1, _, .tok (.sym .question) :: r => postfixAt n .other r
  | _ + 1, e, r => some (e, r)

/-- The casts after an expression. -/
def castAt : Nat → Expr → List RTree → Option (Expr × List RTree)
  | 0, _, _ => none
  | n + 1, e, .tok (.ident x) :: r =>
    if x = str% "as" then
      match typeAt (r.length + 1) r with
      | none => none
      | some (_, r) => castAt n (.cast e) r
    else some (e, .tok (.ident x) :: r)
  | _ + 1, e, r => some (e, r)

/-- A factor of a product. -/
def factorAt : Nat → List RTree → Option (Expr × List RTree)
  | 0, _ => none
  | n + 1, ts =>
    match atomAt n ts with
    | none => none
    | some (e, r) =>
      match postfixAt n e r with
      | none => none
      | some (e, r) => castAt n e r

/-- The further factors of a product. -/
def productAt : Nat → Expr → List RTree → Option (Expr × List RTree)
  | 0, _, _ => none
  | n + 1, e, .tok (.sym s) :: r =>
    match mulOp s with
    | none => some (e, .tok (.sym s) :: r)
    | some o =>
      match factorAt n r with
      | none => none
      | some (f, r) => productAt n (.binary e o f) r
  | _ + 1, e, r => some (e, r)

/-- The further summands of a sum. -/
def sumRest : Nat → Expr → List RTree → Option (Expr × List RTree)
  | 0, _, _ => none
  | n + 1, e, .tok (.sym s) :: r =>
    match addOp s with
    | none => some (e, .tok (.sym s) :: r)
    | some o =>
      match factorAt n r with
      | none => none
      | some (f, r) =>
        match productAt n f r with
        | none => none
        | some (f, r) => sumRest n (.binary e o f) r
  | _ + 1, e, r => some (e, r)

/-- An expression: a sum of products. -/
def sumAt : Nat → List RTree → Option (Expr × List RTree)
  | 0, _ => none
  | n + 1, ts =>
    match factorAt n ts with
    | none => none
    | some (e, r) =>
      match productAt n e r with
      | none => none
      | some (e, r) => sumRest n e r

end

mutual

/-- A bound for the depth of the calls above, for one tree. -/
def treeFuel : RTree → Nat
  | .tok _ => 4
  | .group _ ts => treesFuel ts + 4

/-- A bound for the depth of the calls above, for a list of trees. -/
def treesFuel : List RTree → Nat
  | [] => 4
  | t :: l => treeFuel t + treesFuel l

end

/-- An expression at the start of a list of token trees. -/
def exprAt (ts : List RTree) : Option (Expr × List RTree) := sumAt (treesFuel ts) ts

/-! ### Items -/

/-- What follows the next `;`. -/
def afterSemi : List RTree → Option (List RTree)
  | [] => none
  | .tok (.sym .semi) :: r => some r
  | _ :: r => afterSemi r

/-- What follows the next `;` or the next group in braces, whichever comes first. -/
def afterBody : List RTree → Option (List RTree)
  | [] => none
  | .group .brace _ :: r => some r
  | .tok (.sym .semi) :: r => some r
  | _ :: r => afterBody r

/-- The content of the next group in braces (no `;` before it) and what follows it: skips a `where` clause. -/
def nextBrace : List RTree → Option (List RTree × List RTree)
  | [] => none
  | .group .brace ts :: r => some (ts, r)
  | .tok (.sym .semi) :: _ => none
  | _ :: r => nextBrace r

/-- `escape_debug` on printable ASCII characters, tabs, line breaks and quotes, as in the token string of a doc comment; other characters are refused. -/
def docEscape : Str → Option Str
  | [] => some []
  | c :: s =>
    match docEscape s with
    | none => none
    | some r =>
      if c = '"' then some ('\\' :: '"' :: r)
      else if c = '\\' then some ('\\' :: '\\' :: r)
      else if c = '\t' then some ('\\' :: 't' :: r)
      else if c = '\n' then some ('\\' :: 'n' :: r)
      else if 32 ≤ c.toNat ∧ c.toNat < 127 then some (c :: r)
      else none

/-- The attribute of a doc comment: `#[doc = "…"]`. -/
def docAttr (text : Str) : Option Attr := (docEscape text).map (fun s => .nameValue [str% "doc"] ('"' :: (s ++ ['"'])))

/-- The content of `#[…]`. -/
def attrOf : List RTree → Option Attr
  | [.tok (.ident x), .tok (.sym .eq), .tok (.lit v)] => some (.nameValue [x] v)
  | ts => if ts.any (fun | .tok (.sym .eq) => true | _ => false) then none else some .other

/-- The attributes and doc comments before an item. -/
def attrsAt : List RTree → Option (List Attr × List RTree)
  | .tok (.doc false text) :: r =>
    match docAttr text, attrsAt r with
    | some a, some (l, r) => some (a :: l, r)
    | _, _ => none
  | .tok (.sym .hash) :: .group .bracket ts :: r =>
    match attrOf ts, attrsAt r with
    | some a, some (l, r) => some (a :: l, r)
    | _, _ => none
  | r => some ([], r)

/-- Inner attributes and inner doc comments, which are dropped. -/
def skipInner : List RTree → List RTree
  | .tok (.doc true _) :: r => skipInner r
  | .tok (.sym .hash) :: .tok (.sym .bang) :: .group .bracket _ :: r => skipInner r
  | r => r

/-- `pub`, `pub(…)` or nothing. -/
def skipVis : List RTree → List RTree
  | .tok (.ident x) :: .group .paren ts :: r => if x = str% "pub" then r else .tok (.ident x) :: .group .paren ts :: r
  | .tok (.ident x) :: r => if x = str% "pub" then r else .tok (.ident x) :: r
  | r => r

/-- Qualifiers before `fn`. -/
def skipQualifiers : List RTree → List RTree
  | .tok (.ident x) :: r =>
    if x ∈ [str% "default", str% "const", str% "async", str% "unsafe"] then skipQualifiers r else .tok (.ident x) :: r
  | r => r

/-- The first word, if there is one. -/
def word : List RTree → Str
  | .tok (.ident x) :: _ => x
  | _ => []

/-- The statements of a function body: expressions, and `let` statements.  Items, macro calls and blocks are refused. -/
def stmtsAt : Nat → List RTree → Option (List Stmt)
  | _, [] => some []
  | 0, _ :: _ => none
  | n + 1, t :: ts =>
    if word (t :: ts) = str% "let" then
      match afterSemi ts with
      | none => none
      | some r => (stmtsAt n r).map (fun l => .other :: l)
    else match exprAt (t :: ts) with
      | some (e, []) => some [.expr e]
      | some (e, .tok (.sym .semi) :: r) => (stmtsAt n r).map (fun l => .expr e :: l)
      | _ => none

/-- The return type of a function, if one is given. -/
def outputAt : List RTree → Option (Option Ty × List RTree)
  | .tok (.sym .arrow) :: r => (typeAt (r.length + 1) r).map (fun p => (some p.1, p.2))
  | r => some (none, r)

/-- A function of an `impl` block after its name and generics: parameters, return type, body. -/
def fnRest (attrs : List Attr) (name : Str) : List RTree → Option (ImplFn × List RTree)
  | .group .paren _ :: r =>
    match outputAt r with
    | none => none
    | some (out, r) =>
      match nextBrace r with
      | none => none
      | some (body, r) => (stmtsAt body.length body).map (fun stmts => (⟨name, attrs, out, stmts⟩, r))
  | _ => none

/-- A function of an `impl` block after `fn`. -/
def fnAt (attrs : List Attr) : List RTree → Option (ImplFn × List RTree)
  | .tok (.ident name) :: r =>
    if keyword name then none
    else match skipGenerics r with
      | none => none
      | some r => fnRest attrs name r
  | _ => none

/-- One member of an `impl` block, given its attributes. -/
def implItem (attrs : List Attr) (ts : List RTree) : Option (ImplItem × List RTree) :=
  match skipQualifiers ts with
  | .tok (.ident x) :: r =>
    if x = str% "fn" then (fnAt attrs r).map (fun p => (.fn p.1, p.2))
    else if word ts = str% "const" ∨ word ts = str% "type" then (afterSemi ts).map (fun r => (.other, r))
    else none
  | _ => none

/-- The members of an `impl` block. -/
def implItems : Nat → List RTree → Option (List ImplItem)
  | _, [] => some []
  | 0, _ :: _ => none
  | n + 1, t :: ts =>
    match attrsAt (t :: ts) with
    | none => none
    | some (attrs, r) =>
      match implItem attrs (skipVis r) with
      | none => none
      | some (i, r) => (implItems n r).map (fun l => i :: l)

/-- The type of an `impl` block: the one after `for`, or the only one. -/
def implTy (ts : List RTree) : Option (Ty × List RTree) :=
  match typeAt (ts.length + 1) ts with
  | none => none
  | some (ty, r) => if word r = str% "for" then typeAt (r.tail.length + 1) r.tail else some (ty, r)

/-- An `impl` block after `impl`: generics, an optional trait, the type, the members. -/
def implAt (ts : List RTree) : Option (Item × List RTree) :=
  match skipGenerics ts with
  | none => none
  | some r =>
    match implTy r with
    | none => none
    | some (ty, r) =>
      match nextBrace r with
      | none => none
      | some (body, r) => (implItems body.length (skipInner body)).map (fun items => (.impl ty items, r))

/-- The value of a constant and the final semicolon. -/
def constValue (ts : List RTree) : Option Expr :=
  match exprAt ts with
  | some (e, [.tok (.sym .semi)]) => some e
  | _ => none

/-- The tokens of a macro call as a single constant: `syn::parse2::<ItemConst>`. -/
def constOf (ts : List RTree) : Option ConstDef :=
  match attrsAt ts with
  | none => none
  | some (_, r) =>
    match skipVis r with
    | .tok (.ident k) :: .tok (.ident name) :: .tok (.sym .colon) :: r =>
      if k = str% "const" ∧ keyword name = false then
        match typeAt (r.length + 1) r with
        | some (ty, .tok (.sym .eq) :: r) => (constValue r).map (fun e => ⟨name, ty, e⟩)
        | _ => none
      else none
    | _ => none

/-- A macro call after its path and `!`: in braces, or else followed by `;`.  `macro_rules` has a name before the group. -/
def macroAt (last : Str) : List RTree → Option (Item × List RTree)
  | .group .brace ts :: r => some (.macro last (constOf ts), r)
  | .group _ ts :: .tok (.sym .semi) :: r => some (.macro last (constOf ts), r)
  | .tok (.ident _) :: .group .brace _ :: r => some (.macro last none, r)
  | _ => none

/-- Words that start an item ending with `;`. -/
def semiItem (s : Str) : Bool := s ∈ [str% "use", str% "type", str% "static"]

/-- Words that start an item ending with `;` or a group in braces. -/
def bodyItem (s : Str) : Bool :=
  s ∈ [str% "fn", str% "struct", str% "enum", str% "trait", str% "extern", str% "unsafe", str% "async"]

/-- An item that the parsers skip, or a macro call. -/
def plainItem (x : Str) (r : List RTree) : Option (Item × List RTree) :=
  if x = str% "const" then
    (if word r ∈ [str% "fn", str% "unsafe", str% "async", str% "extern"] then afterBody r else afterSemi r).map (fun r => (.other, r))
  else if semiItem x then (afterSemi r).map (fun r => (.other, r))
  else if bodyItem x then (afterBody r).map (fun r => (.other, r))
  else match pathAt some (r.length + 1) (.tok (.ident x) :: r) with
    | some (p, .tok (.sym .bang) :: r) => macroAt (p.getLast?.getD []) r
    | _ => none

mutual

/-- One item, without its attributes and visibility. -/
def itemAt : Nat → List RTree → Option (Item × List RTree)
  | 0, _ => none
  | n + 1, .tok (.ident x) :: r =>
    if x = str% "impl" then implAt r
    else if x = str% "unsafe" ∧ word r = str% "impl" then implAt r.tail
    else if x = str% "mod" then
      match r with
      | .tok (.ident name) :: .tok (.sym .semi) :: r => some (.mod name none, r)
      | .tok (.ident name) :: .group .brace ts :: r => (itemsAt n (skipInner ts)).map (fun l => (.mod name (some l), r))
      | _ => none
    else plainItem x r
  | _ + 1, _ => none

/-- All items. -/
def itemsAt : Nat → List RTree → Option (List Item)
  | _, [] => some []
  | 0, _ :: _ => none
  | n + 1, t :: ts =>
    match attrsAt (t :: ts) with
    | none => none
    | some (_, r) =>
      match itemAt n (skipVis r) with
      | none => none
      | some (i, r) => (itemsAt n r).map (fun l => i :: l)

end

/-- The items of a text. -/
def readItems (s : Str) : Option (List Item) :=
  match lex s with
  | none => none
  | some toks =>
    match trees toks with
    | none => none
    | some ts => itemsAt (treesFuel ts) (skipInner ts)

/-- A text that is an expression, `syn::parse_str::<Expr>`. -/
def readExpr (s : Str) : Option Expr :=
  match lex s with
  | none => none
  | some toks =>
    match trees toks with
    | none => none
    | some ts =>
      match exprAt ts with
      | some (e, []) => some e
      | _ => none

end RustText

/-- The reader as a `SynParser`. -/
def rustSyn : SynParser := fun s =>
  match RustText.readItems s with
  | some items => .ok items
  | none => .error (str% "refused")

end Swc
