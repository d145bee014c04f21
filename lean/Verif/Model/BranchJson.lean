/-
Model of what `/branches` reads and writes: its query (`web/src/main.rs:206-217`) and its answer in JSON (`web/src/main.rs:280-286`).
-/
import Verif.Model.Query
import Verif.Model.Page

namespace Swc

/-- `web/src/main.rs:206-210` `struct BranchArgs`, as far as it has been read. -/
structure BranchSlots where
  repo : Option Str := none
  fetch : Option Bool := none

/-- The loop body of the derived visitor. -/
def visitBranchPair (s : BranchSlots) (p : Str × Str) : Option BranchSlots := do
  let repo ← visitField (str% "repo") some s.repo p
  let fetch ← visitField (str% "fetch") readBool s.fetch p
  some { repo, fetch }

/-- `web/src/main.rs:215` `web::Query::<BranchArgs>::from_query`, and `:221` `fetch.unwrap_or_default()`. -/
def parseBranchQuery (u : Utf8Lossy) (q : Bytes) : Option (Str × Bool) := do
  let s ← (formPairs u q).foldlM visitBranchPair {}
  some (← s.repo, s.fetch.getD false)

/-- A lower-case hexadecimal digit. -/
def lowerHex (n : Nat) : Char := if n < 10 then Char.ofNat (0x30 + n) else Char.ofNat (0x61 + (n - 10))

/-- `serde_json`: one character of a string. -/
def jsonChar (c : Char) : Str :=
  if c = '"' then str% "\\\""
  else if c = '\\' then str% "\\\\"
  else if c.toNat = 8 then str% "\\b"
  else if c.toNat = 9 then str% "\\t"
  else if c.toNat = 10 then str% "\\n"
  else if c.toNat = 12 then str% "\\f"
  else if c.toNat = 13 then str% "\\r"
  else if c.toNat < 0x20 then str% "\\u00" ++ [lowerHex (c.toNat / 16), lowerHex (c.toNat % 16)]
  else [c]

/-- `serde_json`: a string. -/
def jsonString (s : Str) : Str := '"' :: (s.flatMap jsonChar ++ ['"'])

/-- `serde_json`: a pair of strings. -/
def jsonPair (p : Str × Str) : Str := '[' :: (jsonString p.1 ++ ',' :: (jsonString p.2 ++ [']']))

/-- `serde_json`: the elements of an array. -/
def jsonElements : List Str → Str
  | [] => []
  | [x] => x
  | x :: y :: l => x ++ ',' :: jsonElements (y :: l)

/-- `web/src/main.rs:280-286`: `web::Json(Branches { branch })`. -/
def branchesBody (l : List (Str × Str)) : Str := str% "{\"branch\":[" ++ (jsonElements (l.map jsonPair) ++ str% "]}")

end Swc
