/-
Weight files as texts: how tokens are spelled and laid out, and the grammar of the part of Rust that weight files are written in.

The grammar is stated over token trees (tokens with matched brackets); `toksOf` lists their tokens.  Where the Rust grammar is larger, the rules
given here are a part of it (The Rust Reference, chapters "Lexical structure", "Items", "Expressions").
-/
import Verif.Model.RustText

namespace Swc.Spec

/-! ### Layout -/

/-- Text after `//` that makes the comment a plain one: it starts neither with `!` nor with exactly one more slash. -/
def PlainComment (t : Str) : Prop := ∀ c r, t = c :: r → c ≠ '!' ∧ (c = '/' → ∃ r', r = '/' :: r')

/-- Text between `/*` and `*/`, in which such comments are nested properly. -/
inductive BlockText : Str → Prop
  | nil : BlockText []
  | char {c : Char} {s : Str} (h1 : c = '/' → ∃ d r, s = d :: r ∧ d ≠ '*') (h2 : c = '*' → ∀ r, s ≠ '/' :: r) (hs : BlockText s) : BlockText (c :: s)
  | nested {a s : Str} (ha : BlockText a) (hs : BlockText s) : BlockText ('/' :: '*' :: (a ++ '*' :: '/' :: s))

/-- Text after `/*` that makes the comment a plain one: it starts neither with `!` nor with exactly one more star. -/
def PlainBlock (t : Str) : Prop := ∀ c r, t = c :: r → c ≠ '!' ∧ (c = '*' → r = [] ∨ ∃ r', r = '*' :: r')

/-- White space and plain comments. -/
inductive Blank : Str → Prop
  | nil : Blank []
  | white {c : Char} {s : Str} (h : c = ' ' ∨ c = '\t' ∨ c = '\n' ∨ c = '\r') (hs : Blank s) : Blank (c :: s)
  | comment {t s : Str} (hn : '\n' ∉ t) (hp : PlainComment t) (hs : Blank s) : Blank ('/' :: '/' :: (t ++ '\n' :: s))
  | block {t s : Str} (ht : BlockText t) (hp : PlainBlock t) (hs : Blank s) : Blank ('/' :: '*' :: (t ++ '*' :: '/' :: s))

/-- A letter of a word. -/
def WordChar (c : Char) : Prop := c.isAlpha = true ∨ c.isDigit = true ∨ c = '_'

/-- A word: letters, digits and underscores, starting with no digit. -/
def Word (s : Str) : Prop := ∃ c r, s = c :: r ∧ (c.isAlpha = true ∨ c = '_') ∧ ∀ d ∈ r, WordChar d

/-- The suffixes of integer literals. -/
def intSuffixes : List Str :=
  [[], str% "u8", str% "u16", str% "u32", str% "u64", str% "u128", str% "usize", str% "i8", str% "i16", str% "i32", str% "i64", str% "i128",
    str% "isize"]

/-- `s` spells the number with the decimal digits `d`: digits and underscores, starting with a digit, whose digits are zeros followed by `d`, and
a suffix.  `d` has no leading zero. -/
def IntText (d s : Str) : Prop :=
  ∃ t suffix z, s = t ++ suffix ∧ suffix ∈ intSuffixes ∧ (∃ c r, t = c :: r ∧ c.isDigit = true) ∧ (∀ c ∈ t, c.isDigit = true ∨ c = '_') ∧
    t.filter (· ≠ '_') = List.replicate z '0' ++ d ∧ (d = str% "0" ∨ ∃ c r, d = c :: r ∧ c ≠ '0')

/-- The spelling of punctuation. -/
def symText : Sym → Str
  | .path => str% "::"
  | .arrow => str% "->"
  | .fatArrow => str% "=>"
  | .semi => str% ";"
  | .comma => str% ","
  | .dot => str% "."
  | .colon => str% ":"
  | .eq => str% "="
  | .star => str% "*"
  | .plus => str% "+"
  | .lt => str% "<"
  | .gt => str% ">"
  | .hash => str% "#"
  | .bang => str% "!"
  | .amp => str% "&"
  | .question => str% "?"
  | .other c => [c]

/-- The spelling of brackets. -/
def openText : Delim → Str
  | .paren => str% "("
  | .brace => str% "{"
  | .bracket => str% "["

/-- The spelling of brackets. -/
def closeText : Delim → Str
  | .paren => str% ")"
  | .brace => str% "}"
  | .bracket => str% "]"

/-- Text between quotes: a quote or a backslash in it is escaped by a backslash. -/
inductive StringText : Str → Prop
  | nil : StringText []
  | char {c : Char} {s : Str} (h : c ≠ '"' ∧ c ≠ '\\') (hs : StringText s) : StringText (c :: s)
  | escape {c : Char} {s : Str} (hs : StringText s) : StringText ('\\' :: c :: s)

/-- `s` spells the token. -/
inductive SpellsTok : RTok → Str → Prop
  | ident {x : Str} (h : Word x) : SpellsTok (.ident x) x
  | int {d s : Str} (h : IntText d s) : SpellsTok (.int d) s
  | string {t : Str} (h : StringText t) : SpellsTok (.lit ('"' :: (t ++ ['"']))) ('"' :: (t ++ ['"']))
  | float {a b : Str} (ha : ∃ c r, a = c :: r ∧ c.isDigit = true ∧ ∀ d ∈ r, WordChar d) (hb : ∃ c r, b = c :: r ∧ c.isDigit = true ∧ ∀ d ∈ r, WordChar d) :
    SpellsTok (.lit (a ++ '.' :: b)) (a ++ '.' :: b)
  | doc {t : Str} (hn : '\n' ∉ t) (hr : '\r' ∉ t) (hs : ∀ r, t ≠ '/' :: r) : SpellsTok (.doc false t) ('/' :: '/' :: '/' :: t)
  | innerDoc {t : Str} (hn : '\n' ∉ t) (hr : '\r' ∉ t) : SpellsTok (.doc true t) ('/' :: '/' :: '!' :: t)
  | blockDoc {t : Str} (ht : BlockText t) (hr : '\r' ∉ t) (hs : ∃ c r, t = c :: r ∧ c ≠ '*' ∧ c ≠ '/') :
    SpellsTok (.doc false t) ('/' :: '*' :: '*' :: (t ++ ['*', '/']))
  | innerBlockDoc {t : Str} (ht : BlockText t) (hr : '\r' ∉ t) : SpellsTok (.doc true t) ('/' :: '*' :: '!' :: (t ++ ['*', '/']))
  | char {c : Char} (h : c ≠ '\\' ∧ c ≠ '\'') : SpellsTok (.lit ['\'', c, '\'']) ['\'', c, '\'']
  | lifetime {x : Str} (h : Word x) : SpellsTok (.lifetime x) ('\'' :: x)
  | sym {y : Sym} (h : ∀ c, y = .other c → c ∈ (str% "~@$%^-|/")) : SpellsTok (.sym y) (symText y)
  | opn {d : Delim} : SpellsTok (.opn d) (openText d)
  | cls {d : Delim} : SpellsTok (.cls d) (closeText d)

/-- What follows a token does not run into it.  A line break follows doc comments. -/
def Apart : RTok → Str → Prop
  | .ident _, s => ∀ c r, s = c :: r → ¬ WordChar c ∧ c ≠ '"' ∧ c ≠ '\'' ∧ c ≠ '#'
  | .int _, s => ∀ c r, s = c :: r → ¬ WordChar c ∧ (c = '.' → ∃ d r', r = d :: r' ∧ (d.isAlpha = true ∨ d = '_'))
  | .lit ('"' :: _), _ => True
  | .lit _, s => ∀ c r, s = c :: r → ¬ WordChar c
  | .lifetime _, s => ∀ c r, s = c :: r → ¬ WordChar c ∧ c ≠ '\''
  | .doc _ _, s => ∃ r, s = '\n' :: r
  | .sym .colon, s => ∀ r, s ≠ ':' :: r
  | .sym .eq, s => ∀ r, s ≠ '>' :: r
  | .sym (.other c), s => (c = '-' → ∀ r, s ≠ '>' :: r) ∧ (c = '/' → (∀ r, s ≠ '/' :: r) ∧ ∀ r, s ≠ '*' :: r)
  | _, _ => True

/-- `s` is the list of tokens, with white space and plain comments before, between and after them. -/
inductive Layout : List RTok → Str → Prop
  | nil {s : Str} (h : Blank s) : Layout [] s
  | cons {t : RTok} {ts : List RTok} {gap s rest : Str} (hb : Blank gap) (ht : SpellsTok t s) (ha : Apart t rest) (hr : Layout ts rest) :
    Layout (t :: ts) (gap ++ s ++ rest)

mutual

/-- The tokens of a token tree. -/
def toksOfTree : RTree → List RTok
  | .tok t => [t]
  | .group d ts => .opn d :: (toksOf ts ++ [.cls d])

/-- The tokens of a list of token trees. -/
def toksOf : List RTree → List RTok
  | [] => []
  | t :: ts => toksOfTree t ++ toksOf ts

end

mutual

/-- Brackets occur as groups only. -/
def properTree : RTree → Bool
  | .tok (.opn _) => false
  | .tok (.cls _) => false
  | .tok _ => true
  | .group _ ts => proper ts

/-- Brackets occur as groups only. -/
def proper : List RTree → Bool
  | [] => true
  | t :: ts => properTree t && proper ts

end

/-! ### Names, paths, types -/

/-- The reserved words of Rust, without those that are paths (`self`, `super`, `crate`, `Self`). -/
def reserved : List Str :=
  [str% "as", str% "async", str% "await", str% "break", str% "const", str% "continue", str% "dyn", str% "else", str% "enum", str% "extern",
    str% "false", str% "fn", str% "for", str% "if", str% "impl", str% "in", str% "let", str% "loop", str% "match", str% "mod", str% "move",
    str% "mut", str% "pub", str% "ref", str% "return", str% "static", str% "struct", str% "trait", str% "true", str% "type", str% "unsafe",
    str% "use", str% "where", str% "while", str% "yield", str% "abstract", str% "become", str% "box", str% "do", str% "final", str% "macro",
    str% "override", str% "priv", str% "typeof", str% "unsized", str% "virtual", str% "try", str% "_"]

/-- A name that is not reserved. -/
def Name (x : Str) : Prop := Word x ∧ x ∉ reserved

/-- Punctuation as a token tree. -/
abbrev sy (s : Sym) : RTree := .tok (.sym s)
/-- A word as a token tree. -/
abbrev id' (x : Str) : RTree := .tok (.ident x)

/-- A path without generic arguments: names joined by `::`. -/
inductive PathTrees : List Str → List RTree → Prop
  | one {x : Str} (h : Name x) : PathTrees [x] [id' x]
  | cons {x : Str} {p : List Str} {ts : List RTree} (h : Name x) (hp : PathTrees p ts) : PathTrees (x :: p) (id' x :: sy .path :: ts)

/-- Tokens between angle brackets: anything with balanced angle brackets. -/
inductive Balanced : List RTree → Prop
  | nil : Balanced []
  | other {t : RTree} {ts : List RTree} (h : t ≠ sy .lt ∧ t ≠ sy .gt) (hs : Balanced ts) : Balanced (t :: ts)
  | angles {a ts : List RTree} (ha : Balanced a) (hs : Balanced ts) : Balanced (sy .lt :: (a ++ sy .gt :: ts))

/-- Generic parameters or arguments, or none. -/
inductive Generics : List RTree → Prop
  | none : Generics []
  | some {a : List RTree} (h : Balanced a) : Generics (sy .lt :: (a ++ [sy .gt]))

/-- A type: the empty tuple, or a path with generic arguments at its last segment. -/
inductive TypeTrees : Ty → List RTree → Prop
  | unit : TypeTrees (.tuple 0) [.group .paren []]
  | path {p : List Str} {ts gs : List RTree} (hp : PathTrees p ts) (hg : Generics gs) : TypeTrees (.path false p) (ts ++ gs)

/-! ### Expressions -/

mutual

/-- Literals, paths, expressions in parentheses, struct expressions. -/
inductive Atom : Expr → List RTree → Prop
  | int {d : Str} : Atom (.lit (.int d)) [.tok (.int d)]
  | path {p : List Str} {ts : List RTree} (hp : PathTrees p ts) : Atom (.path p) ts
  | paren {e : Expr} {ts : List RTree} (h : Sum e ts) : Atom (.paren e) [.group .paren ts]
  | struct {p : List Str} {ts : List RTree} {fs : List (Option Str × Expr)} {us : List RTree} (hp : PathTrees p ts) (hf : Fields fs us) :
    Atom (.struct p fs) (ts ++ [.group .brace us])

/-- Calls and method calls. -/
inductive Postfix : Expr → List RTree → Prop
  | atom {e : Expr} {ts : List RTree} (h : Atom e ts) : Postfix e ts
  | call {e : Expr} {ts : List RTree} {l : List Expr} {t : Bool} {us : List RTree} (h : Postfix e ts) (ha : Args l t us) :
    Postfix (.call e l t) (ts ++ [.group .paren us])
  | method {e : Expr} {ts : List RTree} {m : Str} {l : List Expr} {t : Bool} {us : List RTree} (h : Postfix e ts) (hm : Name m) (ha : Args l t us) :
    Postfix (.methodCall e m l t) (ts ++ [sy .dot, id' m, .group .paren us])

/-- Casts. -/
inductive CastExpr : Expr → List RTree → Prop
  | postfix {e : Expr} {ts : List RTree} (h : Postfix e ts) : CastExpr e ts
  | cast {e : Expr} {ts : List RTree} {ty : Ty} {us : List RTree} (h : CastExpr e ts) (ht : TypeTrees ty us) :
    CastExpr (.cast e) (ts ++ id' (str% "as") :: us)

/-- Products. -/
inductive Product : Expr → List RTree → Prop
  | factor {e : Expr} {ts : List RTree} (h : CastExpr e ts) : Product e ts
  | mul {e f : Expr} {ts us : List RTree} (h : Product e ts) (hf : CastExpr f us) : Product (.binary e .mul f) (ts ++ sy .star :: us)

/-- Sums. -/
inductive Sum : Expr → List RTree → Prop
  | product {e : Expr} {ts : List RTree} (h : Product e ts) : Sum e ts
  | add {e f : Expr} {ts us : List RTree} (h : Sum e ts) (hf : Product f us) : Sum (.binary e .add f) (ts ++ sy .plus :: us)

/-- Arguments, separated by commas; the flag says whether a comma follows the last one. -/
inductive Args : List Expr → Bool → List RTree → Prop
  | nil : Args [] false []
  | one {e : Expr} {ts : List RTree} (h : Sum e ts) : Args [e] false ts
  | last {e : Expr} {ts : List RTree} (h : Sum e ts) : Args [e] true (ts ++ [sy .comma])
  | cons {e f : Expr} {ts us : List RTree} {l : List Expr} {t : Bool} (h : Sum e ts) (hl : Args (f :: l) t us) :
    Args (e :: f :: l) t (ts ++ sy .comma :: us)

/-- Fields of a struct expression, with doc comments and attributes, separated by commas. -/
inductive Fields : List (Option Str × Expr) → List RTree → Prop
  | nil : Fields [] []
  | doc {s : Str} {f : Option Str × Expr} {l : List (Option Str × Expr)} {us : List RTree} (h : Fields (f :: l) us) :
    Fields (f :: l) (.tok (.doc false s) :: us)
  | attr {ts us : List RTree} {f : Option Str × Expr} {l : List (Option Str × Expr)} (h : Fields (f :: l) us) :
    Fields (f :: l) (sy .hash :: .group .bracket ts :: us)
  | one {x : Str} {e : Expr} {ts : List RTree} (hx : Name x) (h : Sum e ts) : Fields [(some x, e)] (id' x :: sy .colon :: ts)
  | cons {x : Str} {e : Expr} {ts us : List RTree} {l : List (Option Str × Expr)} (hx : Name x) (h : Sum e ts) (hl : Fields l us) :
    Fields ((some x, e) :: l) (id' x :: sy .colon :: (ts ++ sy .comma :: us))

end

/-! ### Items -/

/-- The characters of a doc comment as in a string literal: quotes, backslashes, tabs and line breaks are escaped, other printable ASCII characters are not. -/
inductive DocText : Str → Str → Prop
  | nil : DocText [] []
  | quote {s t : Str} (h : DocText s t) : DocText ('"' :: s) ('\\' :: '"' :: t)
  | backslash {s t : Str} (h : DocText s t) : DocText ('\\' :: s) ('\\' :: '\\' :: t)
  | newline {s t : Str} (h : DocText s t) : DocText ('\n' :: s) ('\\' :: 'n' :: t)
  | tab {s t : Str} (h : DocText s t) : DocText ('\t' :: s) ('\\' :: 't' :: t)
  | plain {c : Char} {s t : Str} (hc : 32 ≤ c.toNat ∧ c.toNat < 127 ∧ c ≠ '"' ∧ c ≠ '\\') (h : DocText s t) : DocText (c :: s) (c :: t)

/-- Doc comments and attributes before an item: those of the form `#[name = literal]` and those without `=`. -/
inductive AttrTrees : List Attr → List RTree → Prop
  | nil : AttrTrees [] []
  | doc {s t : Str} {l : List Attr} {ts : List RTree} (h : DocText s t) (hl : AttrTrees l ts) :
    AttrTrees (.nameValue [str% "doc"] ('"' :: (t ++ ['"'])) :: l) (.tok (.doc false s) :: ts)
  | value {x v : Str} {l : List Attr} {ts : List RTree} (hl : AttrTrees l ts) :
    AttrTrees (.nameValue [x] v :: l) (sy .hash :: .group .bracket [id' x, sy .eq, .tok (.lit v)] :: ts)
  | attr {us : List RTree} {l : List Attr} {ts : List RTree} (h : sy .eq ∉ us) (hl : AttrTrees l ts) :
    AttrTrees (.other :: l) (sy .hash :: .group .bracket us :: ts)

/-- `pub`, `pub(…)` or nothing. -/
inductive Vis : List RTree → Prop
  | none : Vis []
  | pub : Vis [id' (str% "pub")]
  | scoped {us : List RTree} : Vis [id' (str% "pub"), .group .paren us]

/-- Inner attributes and inner doc comments. -/
inductive Inner : List RTree → Prop
  | nil : Inner []
  | doc {s : Str} {ts : List RTree} (h : Inner ts) : Inner (.tok (.doc true s) :: ts)
  | attr {us ts : List RTree} (h : Inner ts) : Inner (sy .hash :: sy .bang :: .group .bracket us :: ts)

/-- Anything without a semicolon outside of brackets. -/
def NoSemi (ts : List RTree) : Prop := sy .semi ∉ ts

/-- Anything without a semicolon or braces outside of other brackets. -/
def NoBody (ts : List RTree) : Prop := sy .semi ∉ ts ∧ ∀ us, RTree.group .brace us ∉ ts

/-- A `where` clause or nothing. -/
inductive WhereTrees : List RTree → Prop
  | none : WhereTrees []
  | some {ts : List RTree} (h : NoBody ts) : WhereTrees (id' (str% "where") :: ts)

/-- The words before `fn`. -/
inductive Quals : List RTree → Prop
  | nil : Quals []
  | cons {k : Str} {ts : List RTree} (hk : k = str% "default" ∨ k = str% "const" ∨ k = str% "async" ∨ k = str% "unsafe") (h : Quals ts) :
    Quals (id' k :: ts)

/-- The statements of a function: expressions followed by semicolons, except for the last one, and `let` statements. -/
inductive StmtsTrees : List Stmt → List RTree → Prop
  | nil : StmtsTrees [] []
  | last {e : Expr} {ts : List RTree} (h : Sum e ts) : StmtsTrees [.expr e] ts
  | expr {e : Expr} {ts us : List RTree} {l : List Stmt} (h : Sum e ts) (hl : StmtsTrees l us) : StmtsTrees (.expr e :: l) (ts ++ sy .semi :: us)
  | «let» {ts us : List RTree} {l : List Stmt} (h : NoSemi ts) (hl : StmtsTrees l us) :
    StmtsTrees (.other :: l) (id' (str% "let") :: (ts ++ sy .semi :: us))

/-- The result type of a function, if one is given. -/
inductive OutTrees : Option Ty → List RTree → Prop
  | none : OutTrees none []
  | some {ty : Ty} {ts : List RTree} (h : TypeTrees ty ts) : OutTrees (some ty) (sy .arrow :: ts)

/-- A method of an `impl` block. -/
inductive FnTrees : ImplFn → List RTree → Prop
  | mk {name : Str} {attrs : List Attr} {out : Option Ty} {stmts : List Stmt} {at' vis qs gs ps os ws body : List RTree} (hn : Name name)
    (ha : AttrTrees attrs at') (hv : Vis vis) (hq : Quals qs) (hg : Generics gs) (ho : OutTrees out os) (hw : WhereTrees ws) (hs : StmtsTrees stmts body) :
    FnTrees ⟨name, attrs, out, stmts⟩
      (at' ++ vis ++ qs ++ id' (str% "fn") :: id' name :: (gs ++ .group .paren ps :: (os ++ ws ++ [.group .brace body])))

/-- A constant or a type of an `impl` block. -/
inductive OtherTrees : List RTree → Prop
  | const {name : Str} {attrs : List Attr} {at' vis ts : List RTree} (hn : Name name) (hd : name ≠ str% "default") (ha : AttrTrees attrs at')
    (hv : Vis vis) (h : NoSemi ts) : OtherTrees (at' ++ vis ++ id' (str% "const") :: id' name :: (ts ++ [sy .semi]))
  | type {attrs : List Attr} {at' vis ts : List RTree} (ha : AttrTrees attrs at') (hv : Vis vis) (h : NoSemi ts) :
    OtherTrees (at' ++ vis ++ id' (str% "type") :: (ts ++ [sy .semi]))

/-- The members of an `impl` block. -/
inductive MembersTrees : List ImplItem → List RTree → Prop
  | nil : MembersTrees [] []
  | fn {f : ImplFn} {l : List ImplItem} {ts us : List RTree} (hf : FnTrees f ts) (hl : MembersTrees l us) : MembersTrees (.fn f :: l) (ts ++ us)
  | other {l : List ImplItem} {ts us : List RTree} (hf : OtherTrees ts) (hl : MembersTrees l us) : MembersTrees (.other :: l) (ts ++ us)

/-- The trait of an `impl` block and `for`, or nothing. -/
inductive TraitTrees : List RTree → Prop
  | none : TraitTrees []
  | some {trait : Ty} {ts : List RTree} (h : TypeTrees trait ts) : TraitTrees (ts ++ [id' (str% "for")])

/-- A constant, as it stands in `parameter_types!`. -/
inductive ConstTrees : ConstDef → List RTree → Prop
  | mk {name : Str} {attrs : List Attr} {ty : Ty} {e : Expr} {at' vis tys val : List RTree} (hn : Name name) (ha : AttrTrees attrs at') (hv : Vis vis)
    (ht : TypeTrees ty tys) (he : Sum e val) :
    ConstTrees ⟨name, ty, e⟩
      (at' ++ vis ++ id' (str% "const") :: id' name :: sy .colon :: (tys ++ sy .eq :: (val ++ [sy .semi])))

/-- The words that start items with a body. -/
def bodyWords : List Str := [str% "struct", str% "enum", str% "fn", str% "trait", str% "async", str% "extern"]

/-- The words after `const` in `const fn`, `const unsafe fn` and so on. -/
def fnWords : List Str := [str% "fn", str% "unsafe", str% "async", str% "extern"]

mutual

/-- An item without its attributes and visibility. -/
inductive ItemTrees : Item → List RTree → Prop
  | use {ts : List RTree} {k : Str} (hk : k = str% "use" ∨ k = str% "type" ∨ k = str% "static") (h : NoSemi ts) :
    ItemTrees .other (id' k :: (ts ++ [sy .semi]))
  | struct {ts : List RTree} {k : Str} (hk : k ∈ bodyWords) (h : NoBody ts) : ItemTrees .other (id' k :: (ts ++ [sy .semi]))
  | body {ts us : List RTree} {k : Str} (hk : k ∈ bodyWords) (h : NoBody ts) : ItemTrees .other (id' k :: (ts ++ [.group .brace us]))
  | unsafeItem {ts us : List RTree} {k : Str} (hk : k ≠ str% "impl") (h : NoBody ts) :
    ItemTrees .other (id' (str% "unsafe") :: id' k :: (ts ++ [.group .brace us]))
  | constant {ts : List RTree} {k : Str} (hk : k ∉ fnWords) (h : NoSemi ts) : ItemTrees .other (id' (str% "const") :: id' k :: (ts ++ [sy .semi]))
  | constFn {ts us : List RTree} {k : Str} (hk : k ∈ fnWords) (h : NoBody ts) :
    ItemTrees .other (id' (str% "const") :: id' k :: (ts ++ [.group .brace us]))
  | impl {ty : Ty} {its : List ImplItem} {us' gs trs tys ws inner us : List RTree} (hu : us' = [] ∨ us' = [id' (str% "unsafe")]) (hg : Generics gs)
    (hr : TraitTrees trs) (ht : TypeTrees ty tys) (hw : WhereTrees ws) (hi : Inner inner) (hf : MembersTrees its us) :
    ItemTrees (.impl ty its) (us' ++ id' (str% "impl") :: (gs ++ (trs ++ (tys ++ (ws ++ [.group .brace (inner ++ us)])))))
  | mod {name : Str} {l : List Item} {inner us : List RTree} (hn : Name name) (hi : Inner inner) (hl : ItemsTrees l us) :
    ItemTrees (.mod name (some l)) [id' (str% "mod"), id' name, .group .brace (inner ++ us)]
  | decl {name : Str} (hn : Name name) : ItemTrees (.mod name none) [id' (str% "mod"), id' name, sy .semi]
  | const {name : Str} {c : ConstDef} {us : List RTree} (hn : Name name) (hc : ConstTrees c us) :
    ItemTrees (.macro name (some c)) [id' name, sy .bang, .group .brace us]
  | constAt {p : List Str} {name : Str} {c : ConstDef} {ts us : List RTree} {d : Delim} (hp : PathTrees (p ++ [name]) ts) (hd : d ≠ .brace)
    (hc : ConstTrees c us) : ItemTrees (.macro name (some c)) (ts ++ [sy .bang, .group d us, sy .semi])
  | rules {x : Str} {us : List RTree} : ItemTrees (.macro (str% "macro_rules") none) [id' (str% "macro_rules"), sy .bang, id' x, .group .brace us]

/-- Items with their attributes and visibility. -/
inductive ItemsTrees : List Item → List RTree → Prop
  | nil : ItemsTrees [] []
  | cons {attrs : List Attr} {i : Item} {l : List Item} {at' vis ts us : List RTree} (ha : AttrTrees attrs at') (hv : Vis vis) (hi : ItemTrees i ts)
    (hl : ItemsTrees l us) : ItemsTrees (i :: l) (at' ++ vis ++ ts ++ us)

end

/-- `s` is the text of a file with these items. -/
def FileText (items : List Item) (s : Str) : Prop :=
  ∃ inner ts, Inner inner ∧ ItemsTrees items ts ∧ proper (inner ++ ts) = true ∧ Layout (toksOf (inner ++ ts)) s

end Swc.Spec
