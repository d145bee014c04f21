/-
Independent specification of queries: which byte strings spell which names and values, and what the pairs mean.
-/
import Verif.Model.Query
import Verif.Spec.Decimal

namespace Swc.Spec

open Swc

/-- The two cases of a hexadecimal digit. -/
def HexOf (n : Nat) (d : UInt8) : Prop :=
  (n < 10 ∧ d.toNat = 0x30 + n) ∨ (10 ≤ n ∧ n < 16 ∧ (d.toNat = 0x41 + (n - 10) ∨ d.toNat = 0x61 + (n - 10)))

/-- Ways to write a byte: as itself unless it has a meaning in queries, `+` for a space, or with two hexadecimal digits.  (A `=` needs no escape in
a value.) -/
inductive SpellsByte (eq : Bool) : UInt8 → Bytes → Prop
  | plain {b : UInt8} (h1 : b ≠ 0x26) (h2 : b ≠ 0x2B) (h3 : b ≠ 0x25) (h4 : b = 0x3D → eq = true) : SpellsByte eq b [b]
  | space : SpellsByte eq 0x20 [0x2B]
  | hex {b h l : UInt8} (hh : HexOf (b.toNat / 16) h) (hl : HexOf (b.toNat % 16) l) : SpellsByte eq b [0x25, h, l]

/-- Ways to write bytes. -/
inductive Spells (eq : Bool) : Bytes → Bytes → Prop
  | nil : Spells eq [] []
  | cons {b : UInt8} {s t u : Bytes} (hb : SpellsByte eq b t) (hs : Spells eq s u) : Spells eq (b :: s) (t ++ u)

/-- Ways to write a name and a value: `name=value`. -/
def SpellsPair (p : Str × Str) (q : Bytes) : Prop := ∃ n v, Spells false (utf8 p.1) n ∧ Spells true (utf8 p.2) v ∧ q = n ++ 0x3D :: v

/-- Ways to write several pairs: with `&` between them. -/
inductive SpellsPairs : List (Str × Str) → Bytes → Prop
  | nil : SpellsPairs [] []
  | one {p : Str × Str} {q : Bytes} (h : SpellsPair p q) : SpellsPairs [p] q
  | cons {p p' : Str × Str} {l : List (Str × Str)} {q r : Bytes} (h : SpellsPair p q) (hl : SpellsPairs (p' :: l) r) :
    SpellsPairs (p :: p' :: l) (q ++ 0x26 :: r)

/-- The name has exactly one value. -/
def Once (ps : List (Str × Str)) (k v : Str) : Prop := ∃ l r, ps = l ++ (k, v) :: r ∧ (∀ p ∈ l, p.1 ≠ k) ∧ ∀ p ∈ r, p.1 ≠ k

/-- The name has no value. -/
def Never (ps : List (Str × Str)) (k : Str) : Prop := ∀ p ∈ ps, p.1 ≠ k

/-- The value of an optional field. -/
def Maybe {α : Type} (Reads : Str → α → Prop) (ps : List (Str × Str)) (k : Str) : Option α → Prop
  | none => Never ps k
  | some x => ∃ v, Once ps k v ∧ Reads v x

/-- `true` or `false`. -/
def ReadsBool (v : Str) (b : Bool) : Prop := v = if b then str% "true" else str% "false"

/-- A decimal number below 2^32, perhaps with a plus sign. -/
def ReadsU32 (v : Str) (n : Nat) : Prop := n < 2 ^ 32 ∧ (readNat v = some n ∨ ∃ w, v = '+' :: w ∧ readNat w = some n)

/-- The name of a dimension. -/
def ReadsDimension (v : Str) : Dimension → Prop
  | .time => v = str% "time" ∨ v = str% "weight"
  | .proof => v = str% "proof"

/-- The name of a method. -/
def ReadsMethod (v : Str) : CompareMethod → Prop
  | .base => v = str% "base"
  | .guessWorst => v = str% "guess-worst"
  | .exactWorst => v = str% "exact-worst"
  | .exactAsymptotic => v = str% "exact-asymptotic"
  | .asymptotic => v = str% "asymptotic"

/-- What the pairs of a query ask for. -/
structure Asks (ps : List (Str × Str)) (a : CompareArgs) : Prop where
  old : Once ps (str% "old") a.old
  new : Once ps (str% "new") a.new
  repo : Once ps (str% "repo") a.repo
  pathPattern : Once ps (str% "path_pattern") a.pathPattern
  extrinsic : Maybe Eq ps (str% "extrinsic") a.extrinsic
  pallet : Maybe Eq ps (str% "pallet") a.pallet
  ignoreErrors : ∃ v, Once ps (str% "ignore_errors") v ∧ ReadsBool v a.ignoreErrors
  threshold : ∃ v, Once ps (str% "threshold") v ∧ ReadsU32 v a.threshold
  unit : ∃ v, Once ps (str% "unit") v ∧ ReadsDimension v a.unit
  gitPull : Maybe ReadsBool ps (str% "git_pull") a.gitPull
  method : ∃ v, Once ps (str% "method") v ∧ ReadsMethod v a.method

/-- Setting one argument by its name: the arguments before and after, and the text that is sent. -/
inductive Edited (a : CompareArgs) : Str → Str → CompareArgs → Prop
  | old {v : Str} : Edited a (str% "old") v { a with old := v }
  | new {v : Str} : Edited a (str% "new") v { a with new := v }
  | repo {v : Str} : Edited a (str% "repo") v { a with repo := v }
  | pathPattern {v : Str} : Edited a (str% "path_pattern") v { a with pathPattern := v }
  | extrinsic {v : Str} : Edited a (str% "extrinsic") v { a with extrinsic := some v }
  | pallet {v : Str} : Edited a (str% "pallet") v { a with pallet := some v }
  | ignoreErrors {v : Str} {b : Bool} (h : ReadsBool v b) : Edited a (str% "ignore_errors") v { a with ignoreErrors := b }
  | threshold {v : Str} {n : Nat} (h : ReadsU32 v n) : Edited a (str% "threshold") v { a with threshold := n }
  | unit {v : Str} {d : Dimension} (h : ReadsDimension v d) : Edited a (str% "unit") v { a with unit := d }
  | gitPull {v : Str} {b : Bool} (h : ReadsBool v b) : Edited a (str% "git_pull") v { a with gitPull := some b }
  | method {v : Str} {m : CompareMethod} (h : ReadsMethod v m) : Edited a (str% "method") v { a with method := m }

/-- A plus sign is taken for a space. -/
def unplus (c : Char) : Char := if c = '+' then ' ' else c

/-- The text has no character that means something in a URL (a plus sign is allowed here). -/
def UrlSafe (s : Str) : Prop := ∀ c ∈ s, c ≠ '&' ∧ c ≠ '%' ∧ c ≠ '#' ∧ c ≠ '\t' ∧ c ≠ '\n' ∧ c ≠ '\r'

end Swc.Spec
