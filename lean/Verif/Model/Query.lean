/-
Model of how the web server reads a query (`web/src/main.rs`: `web::Query::<CompareArgs>::from_query`, `html_escape::decode_html_entities`) and
of the scripts that write one (`web/static/root.js`, `table.js`, `merge_requests.js`).

* `actix_web::web::Query` uses `serde_urlencoded` 0.7, which uses `form_urlencoded` 1.2.1 and `percent-encoding` 2.3.1.  Errors are not told
  apart here: `none` is an error page.
* The scripts run in a browser.  `URL`, `URLSearchParams` and navigation follow the URL standard (whatwg.org); of it only what is used is
  modelled.
-/
import Verif.Model.Options
import Verif.Model.Web

namespace Swc

/-- Bytes of a query. -/
abbrev Bytes := List UInt8

/-- The UTF-8 encoding of a string. -/
def utf8 (s : Str) : Bytes := s.flatMap String.utf8EncodeChar

/-- `String::from_utf8_lossy` (and "UTF-8 decode without BOM" in the browser): the inverse of `utf8`; what is made of other bytes is left
open. -/
structure Utf8Lossy where
  decode : Bytes → Str
  decode_utf8 : ∀ s, decode (utf8 s) = s

/-- `html_escape::decode_html_entities`: text without `&` contains no entity and is left alone; what is made of other text is left open. -/
structure Entities where
  decode : Str → Str
  decode_plain : ∀ s, '&' ∉ s → decode s = s

/-! ### Reading -/

/-- The value of a hexadecimal digit. -/
def hexByte (b : UInt8) : Option Nat :=
  let n := b.toNat
  if 0x30 ≤ n ∧ n ≤ 0x39 then some (n - 0x30)
  else if 0x41 ≤ n ∧ n ≤ 0x46 then some (n - 0x41 + 10)
  else if 0x61 ≤ n ∧ n ≤ 0x66 then some (n - 0x61 + 10)
  else none

/-- `percent_encoding::percent_decode`: `%` and two digits are a byte; any other `%` stands for itself. -/
def percentDecode : Bytes → Bytes
  | 0x25 :: a :: b :: l =>
    match hexByte a, hexByte b with
    | some x, some y => UInt8.ofNat (x * 16 + y) :: percentDecode l
    | _, _ => 0x25 :: percentDecode (a :: b :: l)
  | c :: l => c :: percentDecode l
  | [] => []

/-- `form_urlencoded::decode`: `+` is a space. -/
def formDecodeBytes (u : Utf8Lossy) (l : Bytes) : Str := u.decode (percentDecode (l.map fun b => if b = 0x2B then 0x20 else b))

/-- `slice.split(|b| b == sep)`. -/
def splitBytes (sep : UInt8) : Bytes → List Bytes
  | [] => [[]]
  | x :: s =>
    if x = sep then [] :: splitBytes sep s
    else match splitBytes sep s with
      | h :: t => (x :: h) :: t
      | [] => [[x]]

/-- `form_urlencoded::parse`: non-empty pieces between `&`; name and value are separated by the first `=`, without which the value is empty. -/
def formPairs (u : Utf8Lossy) (q : Bytes) : List (Str × Str) :=
  ((splitBytes 0x26 q).filter (· ≠ [])).map fun p =>
    (formDecodeBytes u (p.takeWhile (· ≠ 0x3D)), formDecodeBytes u ((p.dropWhile (· ≠ 0x3D)).drop 1))

/-- One field of a derived `Deserialize` for a struct: a second value for a field is an error, and so is a value that cannot be read. -/
def visitField {α : Type} (name : Str) (read : Str → Option α) (slot : Option α) (p : Str × Str) : Option (Option α) :=
  if p.1 = name then
    match slot with
    | some _ => none
    | none => (read p.2).map some
  else some slot

/-- What has been read of the fields of `CompareArgs`. -/
structure Slots where
  old : Option Str := none
  new : Option Str := none
  repo : Option Str := none
  pathPattern : Option Str := none
  extrinsic : Option Str := none
  pallet : Option Str := none
  ignoreErrors : Option Bool := none
  threshold : Option Nat := none
  unit : Option Dimension := none
  gitPull : Option Bool := none
  method : Option CompareMethod := none

/-- `bool::from_str`. -/
def readBool (s : Str) : Option Bool := if s = str% "true" then some true else if s = str% "false" then some false else none

/-- The loop body of the derived visitor: other names are ignored. -/
def visitPair (s : Slots) (p : Str × Str) : Option Slots := do
  let old ← visitField (str% "old") some s.old p
  let new ← visitField (str% "new") some s.new p
  let repo ← visitField (str% "repo") some s.repo p
  let pathPattern ← visitField (str% "path_pattern") some s.pathPattern p
  let extrinsic ← visitField (str% "extrinsic") some s.extrinsic p
  let pallet ← visitField (str% "pallet") some s.pallet p
  let ignoreErrors ← visitField (str% "ignore_errors") readBool s.ignoreErrors p
  let threshold ← visitField (str% "threshold") (parseUInt u32Size) s.threshold p
  let unit ← visitField (str% "unit") (deserialize Dimension.serdeNames) s.unit p
  let gitPull ← visitField (str% "git_pull") readBool s.gitPull p
  let method ← visitField (str% "method") (deserialize CompareMethod.serdeNames) s.method p
  some { old, new, repo, pathPattern, extrinsic, pallet, ignoreErrors, threshold, unit, gitPull, method }

/-- The end of the derived visitor: a missing field is an error, unless its type is `Option`. -/
def Slots.finish (s : Slots) : Option CompareArgs := do
  some { old := ← s.old, new := ← s.new, repo := ← s.repo, pathPattern := ← s.pathPattern, extrinsic := s.extrinsic, pallet := s.pallet,
         ignoreErrors := ← s.ignoreErrors, threshold := ← s.threshold, unit := ← s.unit, gitPull := s.gitPull, method := ← s.method }

/-- The derived `Deserialize` of `CompareArgs` (`web/src/main.rs:60-73`). -/
def readArgs (ps : List (Str × Str)) : Option CompareArgs := do (← ps.foldlM visitPair {}).finish

/-- `web/src/main.rs:291`: `web::Query::<CompareArgs>::from_query`. -/
def parseQuery (u : Utf8Lossy) (q : Bytes) : Option CompareArgs := readArgs (formPairs u q)

/-- `web/src/main.rs:291-299`: the arguments of `/compare`; entities are decoded in three of them. -/
def requestArgs (u : Utf8Lossy) (ent : Entities) (q : Bytes) : Option CompareArgs :=
  (parseQuery u q).map fun a => { a with new := ent.decode a.new, old := ent.decode a.old, pathPattern := ent.decode a.pathPattern }

/-! ### Writing -/

/-- The upper-case hexadecimal digit of a number below 16. -/
def upperHex (n : Nat) : UInt8 := UInt8.ofNat (if n < 10 then 0x30 + n else 0x41 + (n - 10))

/-- `%XY`. -/
def pct (b : UInt8) : Bytes := [0x25, upperHex (b.toNat / 16), upperHex (b.toNat % 16)]

/-- URL standard, "application/x-www-form-urlencoded percent-encode set": everything but ASCII letters, digits and `*-._`; a space becomes
`+`. -/
def formByte (b : UInt8) : Bytes :=
  let n := b.toNat
  if n = 0x20 then [0x2B]
  else if (0x30 ≤ n ∧ n ≤ 0x39) ∨ (0x41 ≤ n ∧ n ≤ 0x5A) ∨ (0x61 ≤ n ∧ n ≤ 0x7A) ∨ n = 0x2A ∨ n = 0x2D ∨ n = 0x2E ∨ n = 0x5F then [b]
  else pct b

/-- URL standard, serializer for one name or value. -/
def formEncode (s : Str) : Bytes := (utf8 s).flatMap formByte

/-- URL standard, "application/x-www-form-urlencoded serializing": `URLSearchParams.toString()`. -/
def formSerialize : List (Str × Str) → Bytes
  | [] => []
  | [p] => formEncode p.1 ++ 0x3D :: formEncode p.2
  | p :: q :: l => formEncode p.1 ++ 0x3D :: formEncode p.2 ++ 0x26 :: formSerialize (q :: l)

/-- `URLSearchParams.set(name, value)`: the first pair of that name gets the value and the others are removed; without one a pair is appended. -/
def setParam (name value : Str) : List (Str × Str) → List (Str × Str)
  | [] => [(name, value)]
  | p :: l => if p.1 = name then (name, value) :: l.filter (fun q => q.1 ≠ name) else p :: setParam name value l

/-- `web/static/table.js:16-25` `url_redirect(arg, value)`: the query of the page that is opened, if any. -/
def urlRedirect (u : Utf8Lossy) (q : Bytes) (arg value : Str) : Option Bytes :=
  if value = [] then none else some (formSerialize (setParam arg value (formPairs u q)))

/-- URL standard, "special-query percent-encode set": control characters, everything above `~`, space, `"`, `#`, `<`, `>` and `'`. -/
def queryEscaped (c : Char) : Bool := c.toNat ≤ 0x20 || 0x7E < c.toNat || c == '"' || c == '#' || c == '<' || c == '>' || c == '\''

/-- Opening `…?s` (`window.location.href = …`): control characters and spaces at the end, tabs and line ends are dropped; `#` ends the query;
some characters are encoded. -/
def navigate (s : Str) : Bytes :=
  (((s.reverse.dropWhile fun c => c.toNat ≤ 0x20).reverse.filter fun c => c ≠ '\t' ∧ c ≠ '\n' ∧ c ≠ '\r').takeWhile (· ≠ '#')).flatMap
    fun c => if queryEscaped c then (utf8 [c]).flatMap pct else utf8 [c]

/-- `web/static/common.js:12-14` `path_pattern_presets`. -/
def pathPresets : List (Str × Str) :=
  [(str% "polkadot-sdk", str% "substrate/frame/**/src/weights.rs,polkadot/runtime/*/src/weights/**/*.rs,polkadot/bridges/modules/*/src/weights.rs,cumulus/**/weights/*.rs,cumulus/**/weights/xcm/*.rs,cumulus/**/src/weights.rs")]

/-- `web/static/root.js:150-156`: the query written by the start page. -/
def rootText (repo first second pattern : Str) : Str :=
  str% "unit=weight&ignore_errors=true&threshold=10&method=asymptotic" ++ (str% "&repo=" ++ (repo ++ (str% "&old=" ++ (first ++
    (str% "&new=" ++ (second ++ (str% "&path_pattern=" ++ pattern)))))))

/-- `web/static/root.js:147-166`: the query opened by the button "Compare" of the start page, with the selected repository and revisions;
without a preset there is an alert only.  (`repo in path_pattern_presets` also holds for the names of inherited properties such as
`toString`, which is left out.) -/
def rootQuery (repo first second : Str) : Option Bytes :=
  (pathPresets.lookup repo).map fun pattern => navigate (rootText repo first second pattern)

/-- `web/static/common.js:16-31` `default_params`; an exception without a preset. -/
def defaultParams (repo : Str) : Option (List (Str × Str)) :=
  (pathPresets.lookup repo).map fun pattern =>
    [(str% "repo", repo), (str% "threshold", str% "10"), (str% "path_pattern", pattern), (str% "method", str% "asymptotic"),
      (str% "ignore_errors", str% "true"), (str% "unit", str% "time")]

/-- `web/static/merge_requests.js:88-103`: the query opened for a merge request from branch `head` into branch `base`.  The serialized part is
plain ASCII. -/
def mergeRequestQuery (repo base head : Str) : Option Bytes :=
  (defaultParams repo).map fun ps => navigate (
    (formSerialize ps).map (fun b => Char.ofNat b.toNat) ++ str% "&old=" ++ base ++ str% "&new=" ++ head)

/-- `web/templates/root.stpl:45-47`: the options for the repository, value and text.  (`to_lowercase` for ASCII names.) -/
def rootOptions (repos : List Str) : List (Str × Str) := repos.map fun r => (asciiLower r, r)

end Swc
