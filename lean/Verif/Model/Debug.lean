/-
The notation of `{:?}` for texts (`impl Debug for str` of the standard library): in quotes, with escapes.
-/
import Verif.Model.Basic

namespace Swc

/-- One character between the quotes: `char::escape_debug_ext` with double quotes and extended graphemes escaped.  `plain` tells which characters are written as they
are, if none of the other escapes applies: the printable ones that do not extend a grapheme. -/
def debugChar (plain : Char → Bool) (c : Char) : Str :=
  if c = '\x00' then str% "\\0"
  else if c = '\t' then str% "\\t"
  else if c = '\r' then str% "\\r"
  else if c = '\n' then str% "\\n"
  else if c = '\\' then str% "\\\\"
  else if c = '"' then str% "\\\""
  else if plain c then [c]
  else str% "\\u{" ++ Nat.toDigits 16 c.toNat ++ str% "}"

/-- `format!("{:?}", s)` for a text. -/
def debugStr (plain : Char → Bool) (s : Str) : Str := '"' :: s.flatMap (debugChar plain) ++ ['"']

/-- `.map_err(f)` -/
def Res.mapErr {α : Type} (f : Str → Str) : Res α → Res α
  | .err e => .err (f e)
  | r => r

end Swc
