/-
The part of `syn`'s syntax tree that the parsers look at, and the string helpers they use.

`syn` itself (text to tree) is not modelled: `SynParser` is an arbitrary function.  Everything the code cannot see is dropped
(generic arguments, `qself`, spans, visibility, the target type of a cast, attributes other than those of methods).
-/
import Verif.Model.Term

namespace Swc

/-- `syn::Lit`: an integer literal is given by `base10_digits()` (no underscores, no suffix, base 10); all others are alike. -/
inductive Lit where
  | int (base10 : Str)
  | other
  deriving DecidableEq

/-- `syn::BinOp` as far as it is distinguished. -/
inductive BinOp where
  | mul
  | add
  | other
  deriving DecidableEq

/-- `syn::Expr` as far as it is distinguished.  `trailing`: the argument list ends with a comma.  A path is the list of the identifiers
of its segments.  The fields of a struct expression are pairs of a member name (`none`: tuple index) and an expression. -/
inductive Expr where
  | paren (e : Expr)
  | cast (e : Expr)
  | methodCall (receiver : Expr) (method : Str) (args : List Expr) (trailing : Bool)
  | path (segs : List Str)
  | call (func : Expr) (args : List Expr) (trailing : Bool)
  | lit (l : Lit)
  | binary (left : Expr) (op : BinOp) (right : Expr)
  | struct (path : List Str) (fields : List (Option Str × Expr))
  | other

/-- `syn::Type` as far as it is distinguished. -/
inductive Ty where
  | tuple (elems : Nat)
  | path (leadingColon : Bool) (segs : List Str)
  | other
  deriving DecidableEq

/-- `syn::Attribute`: `#[path = value]` with the token string of the value (a doc comment is `#[doc = "…"]`), or another form. -/
inductive Attr where
  | nameValue (path : List Str) (value : Str)
  | other
  deriving DecidableEq

/-- `syn::Stmt`: an expression (with or without semicolon), or a `let`, an item, or a macro call. -/
inductive Stmt where
  | expr (e : Expr)
  | other

/-- `syn::ImplItemFn`: name, attributes, return type (`none`: default return type), statements of the body. -/
structure ImplFn where
  name : Str
  attrs : List Attr
  output : Option Ty
  stmts : List Stmt

/-- `syn::ImplItem`. -/
inductive ImplItem where
  | fn (f : ImplFn)
  | other

/-- `syn::ItemConst`: name, type, value. -/
structure ConstDef where
  name : Str
  ty : Ty
  value : Expr

/-- `syn::Item` as far as it is distinguished.  The path of a macro call is given by its last segment (a parsed path has at least one).
The tokens of a macro call are given by their parse result as an `ItemConst` (`syn::parse2`), `none` if they are not one. -/
inductive Item where
  | impl (selfTy : Ty) (items : List ImplItem)
  | mod (name : Str) (content : Option (List Item))
  | macro (last : Str) (tokens : Option ConstDef)
  | other

/-- `syn::parse_file`: the items of the file, or an error. -/
abbrev SynParser := Str → Except Str (List Item)

/-- `a.ends_with(b)` -/
def endsWith (a b : Str) : Bool := b.isSuffixOf a

/-- `core/src/parse/mod.rs:98-105` `path_to_string`. -/
def pathToString (segs : List Str) (delimiter : Option Str) : Str := joinStr (delimiter.getD []) segs

/-- `args.empty_or_trailing()` of `Punctuated`. -/
def emptyOrTrailing (args : List Expr) (trailing : Bool) : Bool := args.isEmpty || trailing

/-- The digits of a number in base 10, added to what has been read. -/
def parseDigits : Nat → Str → Option Nat
  | acc, [] => some acc
  | acc, c :: s => if c.isDigit then parseDigits (acc * 10 + (c.toNat - '0'.toNat)) s else none

/-- `str::parse` for an unsigned integer type with `bound` values: an optional plus sign, at least one digit, no overflow. -/
def parseUInt (bound : Nat) (s : Str) : Option Nat :=
  let digits := match s with
    | '+' :: r => r
    | r => r
  match digits with
  | [] => none
  | d => match parseDigits 0 d with
    | some n => if n < bound then some n else none
    | none => none

end Swc
