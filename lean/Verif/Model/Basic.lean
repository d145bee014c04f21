/-
Basic vocabulary of the model: strings, outcomes, u128 arithmetic, sorted maps and sets.
-/
import Lean.Elab.Term

namespace Swc

/-- Rust `String`/`&str`: the list of its code points.  Rust compares strings bytewise on their UTF-8 encoding, which is the
lexicographic order on code points, i.e. `compare` on `List Char`. -/
abbrev Str := List Char

/-- `str% "abc"` is the literal `['a', 'b', 'c'] : Str` (expanded at elaboration time). -/
macro "str%" s:str : term => do
  let cs := (s.getString.toList.map fun c => Lean.Syntax.mkCharLit c).toArray
  `((([$cs,*] : List Char) : Str))

/-- Outcome of running a Rust function returning `Result<α, String>` (or `α`): a value, an error message, a panic
(`unwrap`, `expect`, `unreachable!`, `assert!`, checked overflow), or non-termination. -/
inductive Res (α : Type) where
  | ok (a : α)
  | err (msg : Str)
  | panic
  | diverge
  deriving DecidableEq, Repr

namespace Res

/-- The `?` operator (and sequencing of effects): stop at the first outcome that is not a value. -/
@[inline] def bind {α β : Type} (x : Res α) (f : α → Res β) : Res β :=
  match x with
  | ok a => f a
  | err m => err m
  | panic => panic
  | diverge => diverge

instance : Monad Res where
  pure := ok
  bind := Res.bind

@[simp] theorem pure_eq {α : Type} (a : α) : (pure a : Res α) = ok a := rfl
@[simp] theorem bind_ok {α β : Type} (a : α) (f : α → Res β) : (ok a >>= f) = f a := rfl
@[simp] theorem bind_err {α β : Type} (m : Str) (f : α → Res β) : (err m >>= f) = err m := rfl
@[simp] theorem bind_panic {α β : Type} (f : α → Res β) : ((panic : Res α) >>= f) = panic := rfl
@[simp] theorem bind_diverge {α β : Type} (f : α → Res β) : ((diverge : Res α) >>= f) = diverge := rfl

instance : LawfulMonad Res := LawfulMonad.mk'
  (id_map := fun x => by cases x <;> rfl)
  (pure_bind := fun _ _ => rfl)
  (bind_assoc := fun x _ _ => by cases x <;> rfl)

/-- `Option::unwrap` / `expect`: panics on `None`. -/
def unwrap {α : Type} : Option α → Res α
  | some a => ok a
  | none => panic

/-- `Result::is_ok`. -/
def isOk {α : Type} : Res α → Bool
  | ok _ => true
  | _ => false

/-- `Result::map`. -/
def map {α β : Type} (f : α → β) : Res α → Res β
  | ok a => ok (f a)
  | err m => err m
  | panic => panic
  | diverge => diverge

end Res

/-- How the crate was built.  `debug` = overflow checks on (dev and test profiles); `release` = overflow wraps
(release, production profiles of `Cargo.toml:30-41`, which do not set `overflow-checks`). -/
inductive Build where
  | debug
  | release
  deriving DecidableEq, Repr

/-- Number of `u128` values. -/
def u128Size : Nat := 2 ^ 128

/-- `x + y` on `u128` (primitive addition, used in `core/src/term.rs:140,374`). -/
def addU128 (b : Build) (x y : Nat) : Res Nat :=
  if x + y < u128Size then .ok (x + y)
  else match b with
    | .debug => .panic
    | .release => .ok ((x + y) % u128Size)

/-- `x * y` on `u128` (primitive multiplication, used in `core/src/term.rs:141,379,383`, `core/src/traits.rs:83`). -/
def mulU128 (b : Build) (x y : Nat) : Res Nat :=
  if x * y < u128Size then .ok (x * y)
  else match b with
    | .debug => .panic
    | .release => .ok ((x * y) % u128Size)

/-! ### Sorted maps and sets (`BTreeMap`, `BTreeSet`) -/

/-- `BTreeMap<String, T>` as the list of its entries in iteration (ascending key) order. -/
abbrev BMap (T : Type) := List (Str × T)

namespace BMap

/-- `BTreeMap::insert` (the returned old value is never used in the code base). -/
def insert {T : Type} (k : Str) (v : T) : BMap T → BMap T
  | [] => [(k, v)]
  | (k', v') :: m =>
    match compare k k' with
    | .lt => (k, v) :: (k', v') :: m
    | .eq => (k, v) :: m
    | .gt => (k', v') :: insert k v m

/-- `BTreeMap::get`. -/
def get {T : Type} (m : BMap T) (k : Str) : Option T := List.lookup k m

/-- Inserting a sequence of entries one after the other: `collect()` / `extend()`. -/
def insertAll {T : Type} (m : BMap T) (l : List (Str × T)) : BMap T :=
  l.foldl (fun acc p => insert p.1 p.2 acc) m

end BMap

/-- `BTreeSet::insert` for the order `cmp`: an element comparing equal is kept, not replaced. -/
def setInsert {α : Type} (cmp : α → α → Ordering) (x : α) : List α → List α
  | [] => [x]
  | y :: l =>
    match cmp x y with
    | .lt => x :: y :: l
    | .eq => y :: l
    | .gt => y :: setInsert cmp x l

/-- `iter.collect::<BTreeSet<_>>()`, as the ascending list of the elements. -/
def setOfList {α : Type} (cmp : α → α → Ordering) (l : List α) : List α :=
  l.foldl (fun acc x => setInsert cmp x acc) []

/-- `a.union(&b).cloned().collect::<BTreeSet<_>>()`. -/
def setUnion {α : Type} (cmp : α → α → Ordering) (a b : List α) : List α :=
  setOfList cmp (a ++ b)

/-- Remove every `'_'`: `s.replace('_', "")`. -/
def stripUnderscore (s : Str) : Str := s.filter (· ≠ '_')

/-- `u128::to_string` / `{}` of an unsigned integer: decimal digits. -/
def natToStr (n : Nat) : Str := Nat.toDigits 10 n

/-- `v.join(sep)` for a vector of strings. -/
def joinStr (sep : Str) : List Str → Str
  | [] => []
  | [x] => x
  | x :: y :: l => x ++ sep ++ joinStr sep (y :: l)

end Swc
