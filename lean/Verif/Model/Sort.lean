/-
Model of the standard library's stable slice sort (`slice::sort_by` of Rust 1.80.0, the toolchain pinned in `rust-toolchain.toml`), as
used by `sort_changes` (`core/src/lib.rs:766-768`).

The comparison function of `sort_changes` is not an order (an error is `Less` than every error, itself included), so the result depends
on the algorithm.  Two descriptions are given:
* `MergeSort`: a relation that allows every way of cutting the input into runs and every merge order of the algorithm;
* `stableSort`: the concrete strategy of Rust 1.80.0 (insertion sort up to 20 elements, else TimSort runs).
The slices are lists; moving elements through the merge buffer is not modelled.
-/
import Verif.Model.Compare

namespace Swc

section
variable {α : Type}

/-- `insert_tail`: shift the last element left while it is less than its left neighbour.  Here on the reversed prefix. -/
def insertRev (less : α → α → Bool) (x : α) : List α → List α
  | [] => [x]
  | y :: l => if less x y then y :: insertRev less x l else x :: y :: l

/-- Insert `x` at the end of the sorted list `l`. -/
def insertTail (less : α → α → Bool) (x : α) (l : List α) : List α := (insertRev less x l.reverse).reverse

/-- Forward merge (left run copied to the buffer): take from the right if its head is less than the head of the left. -/
def mergeFwd (less : α → α → Bool) : List α → List α → List α
  | [], r => r
  | l, [] => l
  | a :: l, b :: r => if less b a then b :: mergeFwd less (a :: l) r else a :: mergeFwd less l (b :: r)
termination_by l r => l.length + r.length

/-- Backward merge (right run copied to the buffer), on reversed lists: take the greater last element; if equal, prefer the right. -/
def mergeRev (less : α → α → Bool) : List α → List α → List α
  | [], r => r
  | l, [] => l
  | a :: l, b :: r => if less b a then a :: mergeRev less l (b :: r) else b :: mergeRev less (a :: l) r
termination_by l r => l.length + r.length

/-- Backward merge. -/
def mergeBwd (less : α → α → Bool) (l r : List α) : List α := (mergeRev less l.reverse r.reverse).reverse

/-- Everything the merge sort can do: take a run that is already ascending (no element less than its predecessor), reverse a strictly
descending run, insert one more element into a sorted part, merge two adjacent sorted parts in either direction. -/
inductive MergeSort (less : α → α → Bool) : List α → List α → Prop where
  | asc {l} : l.IsChain (fun a b => less b a = false) → MergeSort less l l
  | desc {l} : l.IsChain (fun a b => less b a = true) → MergeSort less l l.reverse
  | insert {l l' x} : MergeSort less l l' → MergeSort less (l ++ [x]) (insertTail less x l')
  | fwd {l l' r r'} : MergeSort less l l' → MergeSort less r r' → MergeSort less (l ++ r) (mergeFwd less l' r')
  | bwd {l l' r r'} : MergeSort less l l' → MergeSort less r r' → MergeSort less (l ++ r) (mergeBwd less l' r')

/-! ### The concrete strategy -/

/-- Longest prefix of `l` in which every element stands in the relation `p` to its predecessor (`x` precedes `l`); and the rest. -/
def takeRun (p : α → α → Bool) (x : α) : List α → List α × List α
  | [] => ([], [])
  | y :: l => if p y x then (y :: (takeRun p y l).1, (takeRun p y l).2) else ([], y :: l)

/-- `find_streak` and the reversal of a descending streak: the sorted run, and the rest. -/
def findStreak (less : α → α → Bool) : List α → List α × List α
  | [] => ([], [])
  | [x] => ([x], [])
  | x :: y :: l =>
    if less y x then ((x :: (takeRun less x (y :: l)).1).reverse, (takeRun less x (y :: l)).2)
    else (x :: (takeRun (fun a b => !less a b) x (y :: l)).1, (takeRun (fun a b => !less a b) x (y :: l)).2)

/-- `insertion_sort_shift_left`: insert the elements of `l` one after the other. -/
def insertAll (less : α → α → Bool) (run l : List α) : List α := l.foldl (fun r x => insertTail less x r) run

/-- `provide_sorted_batch`: fill up a short run to 10 elements by insertion. -/
def provideBatch (less : α → α → Bool) (run rest : List α) : List α × List α :=
  if run.length < 10 then (insertAll less run (rest.take (10 - run.length)), rest.drop (10 - run.length)) else (run, rest)

/-- `merge`: the shorter side goes to the buffer. -/
def mergeRuns (less : α → α → Bool) (l r : List α) : List α :=
  if l.length ≤ r.length then mergeFwd less l r else mergeBwd less l r

/-- `collapse`: is there something to merge?  `none`; `some false`: the two topmost runs; `some true`: the two below the topmost one.
The stack has its top first; `done` says that the topmost run ends at the end of the slice. -/
def collapseAt (done : Bool) : List (List α) → Option Bool
  | r1 :: r2 :: rs =>
    let r3 := rs.head?.map List.length
    let r4 := rs.tail.head?.map List.length
    if done || r2.length ≤ r1.length || (r3.elim false fun n3 => n3 ≤ r2.length + r1.length)
        || (r4.elim false fun n4 => r3.elim false fun n3 => n4 ≤ n3 + r2.length)
    then some (r3.elim false fun n3 => n3 < r1.length)
    else none
  | _ => none

/-- The inner loop: merge until `collapse` has nothing to merge.  Every merge shortens the stack, so `stack.length` steps suffice. -/
def collapseLoop (less : α → α → Bool) (done : Bool) : Nat → List (List α) → List (List α)
  | 0, stack => stack
  | n + 1, stack =>
    match collapseAt done stack, stack with
    | some false, r1 :: r2 :: rs => collapseLoop less done n (mergeRuns less r2 r1 :: rs)
    | some true, r1 :: r2 :: r3 :: rs => collapseLoop less done n (r1 :: mergeRuns less r3 r2 :: rs)
    | _, _ => stack

/-- The outer loop: cut off runs until the slice is exhausted.  Every run is non-empty, so `rest.length` steps suffice. -/
def sortLoop (less : α → α → Bool) : Nat → List (List α) → List α → List (List α)
  | 0, stack, _ => stack
  | _, stack, [] => stack
  | n + 1, stack, x :: rest =>
    let s := findStreak less (x :: rest)
    let b := provideBatch less s.1 s.2
    sortLoop less n (collapseLoop less b.2.isEmpty (stack.length + 1) (b.1 :: stack)) b.2

/-- `slice::sort_by` of Rust 1.80.0 (`core::slice::sort::merge_sort`). -/
def stableSort (less : α → α → Bool) (l : List α) : List α :=
  if l.length ≤ 20 then
    match l with
    | [] => []
    | x :: l => insertAll less [x] l
  else (sortLoop less l.length [] l).headD []

end

/-- `a.change.cmp(&b.change) == Less` -/
def diffLess (a c : ExtrinsicDiff) : Bool := a.change.cmp c.change == .lt

/-- `core/src/lib.rs:766-768` `sort_changes`. -/
def sortChanges (diff : List ExtrinsicDiff) : List ExtrinsicDiff := stableSort diffLess diff

end Swc
