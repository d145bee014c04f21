/-
How a browser reads JSON (RFC 8259, `JSON.parse`).  Numbers are left out, and so are unpaired surrogates, which no text of characters contains.
-/
import Verif.Model.Basic

namespace Swc.Spec

/-- A value. -/
inductive Json where
  | null
  | bool (b : Bool)
  | str (s : Str)
  | arr (l : List Json)
  | obj (fields : List (Str × Json))

namespace Json

/-- White space between tokens. -/
def space (c : Char) : Bool := c = ' ' || c = '\t' || c = '\n' || c = '\r'

/-- Skip white space. -/
def skip (s : Str) : Str := s.dropWhile space

/-- A hexadecimal digit. -/
def hex (c : Char) : Option Nat :=
  if '0' ≤ c ∧ c ≤ '9' then some (c.toNat - 0x30)
  else if 'a' ≤ c ∧ c ≤ 'f' then some (c.toNat - 0x61 + 10)
  else if 'A' ≤ c ∧ c ≤ 'F' then some (c.toNat - 0x41 + 10)
  else none

/-- Four hexadecimal digits. -/
def hex4 : Str → Option (Nat × Str)
  | a :: b :: c :: d :: r =>
    match hex a, hex b, hex c, hex d with
    | some a, some b, some c, some d => some (((a * 16 + b) * 16 + c) * 16 + d, r)
    | _, _, _, _ => none
  | _ => none

/-- The character of an escape of one letter. -/
def escape (c : Char) : Option Char :=
  if c = '"' then some '"'
  else if c = '\\' then some '\\'
  else if c = '/' then some '/'
  else if c = 'b' then some (Char.ofNat 8)
  else if c = 'f' then some (Char.ofNat 12)
  else if c = 'n' then some '\n'
  else if c = 'r' then some '\r'
  else if c = 't' then some '\t'
  else none

/-- The character with the given code unit, or the second half of a pair if it is the first one. -/
def codePoint (n : Nat) (r : Str) : Option (Char × Str) :=
  if 0xDC00 ≤ n ∧ n < 0xE000 then none
  else if 0xD800 ≤ n ∧ n < 0xDC00 then
    match r with
    | '\\' :: 'u' :: r =>
      match hex4 r with
      | some (m, r) => if 0xDC00 ≤ m ∧ m < 0xE000 then some (Char.ofNat (0x10000 + (n - 0xD800) * 0x400 + (m - 0xDC00)), r) else none
      | none => none
    | _ => none
  else some (Char.ofNat n, r)

/-- The rest of a string after the opening quote, and what follows it. -/
def stringRest : Nat → Str → Option (Str × Str)
  | 0, _ => none
  | _ + 1, [] => none
  | n + 1, c :: r =>
    if c = '"' then some ([], r)
    else if c = '\\' then
      match r with
      | [] => none
      | e :: r =>
        if e = 'u' then
          match hex4 r with
          | none => none
          | some (m, r) =>
            match codePoint m r with
            | none => none
            | some (x, r) => (stringRest n r).map fun p => (x :: p.1, p.2)
        else
          match escape e with
          | none => none
          | some x => (stringRest n r).map fun p => (x :: p.1, p.2)
    else if c.toNat < 0x20 then none
    else (stringRest n r).map fun p => (c :: p.1, p.2)

mutual

/-- A value and what follows it. -/
def value : Nat → Str → Option (Json × Str)
  | 0, _ => none
  | n + 1, s =>
    match skip s with
    | '"' :: r => (stringRest (r.length + 1) r).map fun p => (.str p.1, p.2)
    | '[' :: r =>
      match skip r with
      | ']' :: r => some (.arr [], r)
      | _ => (elements n r).map fun p => (.arr p.1, p.2)
    | '{' :: r =>
      match skip r with
      | '}' :: r => some (.obj [], r)
      | _ => (members n r).map fun p => (.obj p.1, p.2)
    | 't' :: 'r' :: 'u' :: 'e' :: r => some (.bool true, r)
    | 'f' :: 'a' :: 'l' :: 's' :: 'e' :: r => some (.bool false, r)
    | 'n' :: 'u' :: 'l' :: 'l' :: r => some (.null, r)
    | _ => none

/-- The elements of an array up to its end. -/
def elements : Nat → Str → Option (List Json × Str)
  | 0, _ => none
  | n + 1, s =>
    match value n s with
    | none => none
    | some (v, r) =>
      match skip r with
      | ',' :: r => (elements n r).map fun p => (v :: p.1, p.2)
      | ']' :: r => some ([v], r)
      | _ => none

/-- The members of an object up to its end. -/
def members : Nat → Str → Option (List (Str × Json) × Str)
  | 0, _ => none
  | n + 1, s =>
    match skip s with
    | '"' :: r =>
      match stringRest (r.length + 1) r with
      | none => none
      | some (k, r) =>
        match skip r with
        | ':' :: r =>
          match value n r with
          | none => none
          | some (v, r) =>
            match skip r with
            | ',' :: r => (members n r).map fun p => ((k, v) :: p.1, p.2)
            | '}' :: r => some ([(k, v)], r)
            | _ => none
        | _ => none
    | _ => none

end

/-- `JSON.parse`. -/
def parse (s : Str) : Option Json :=
  match value (2 * s.length + 1) s with
  | some (v, r) => if skip r = [] then some v else none
  | none => none

/-- `d[key]`: of members with the same name the last one counts. -/
def get (key : Str) : Json → Option Json
  | .obj fields => fields.reverse.lookup key
  | _ => none

end Json

/-- The list in the answer of `/branches` as the script of the start page uses it (`web/static/root.js:29-31`, `:67`): `d['branch'][i][0]` and
`d['branch'][i][1]`. -/
def readBranches (body : Str) : Option (List (Str × Str)) :=
  match (Json.parse body).bind (Json.get (str% "branch")) with
  | some (.arr l) => l.mapM fun
    | .arr (.str a :: .str b :: _) => some (a, b)
    | _ => none
  | _ => none

end Swc.Spec
