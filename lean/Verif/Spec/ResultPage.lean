/-
Independent specification of the result page in the browser: what its controls mean, visits, and what a sorted table is.
-/
import Verif.Model.ResultPage
import Verif.Spec.Query
import Verif.Spec.Crowd

namespace Swc.Spec

open Swc

/-- The user sets the control that shows an argument (`Shows`) to another value: this is the comparison that they want to see. -/
inductive Wants (a : CompareArgs) : Str → Setting → CompareArgs → Prop
  | old {v : Str} (h : v ≠ []) : Wants a (str% "input_old") (.value v) { a with old := v }
  | new {v : Str} (h : v ≠ []) : Wants a (str% "input_new") (.value v) { a with new := v }
  | pathPattern {v : Str} (h : v ≠ []) : Wants a (str% "input_path_pattern") (.value v) { a with pathPattern := v }
  | pallet {v : Str} (h : v ≠ []) : Wants a (str% "input_pallet") (.value v) { a with pallet := some v }
  | extrinsic {v : Str} (h : v ≠ []) : Wants a (str% "input_extrinsic") (.value v) { a with extrinsic := some v }
  | threshold {v : Str} {n : Nat} (h : ReadsU32 v n) : Wants a (str% "input_threshold") (.value v) { a with threshold := n }
  | unit {v : Str} {d : Dimension} (h : ReadsDimension v d) : Wants a (str% "select_unit") (.value v) { a with unit := d }
  | method {v : Str} {m : CompareMethod} (h : ReadsMethod v m) : Wants a (str% "select_method") (.value v) { a with method := m }
  | repo {v : Str} (h : v ≠ []) : Wants a (str% "select_repo") (.value v) { a with repo := v }
  | ignoreErrors {b : Bool} : Wants a (str% "checkbox_ignore_errors") (.box b) { a with ignoreErrors := b }
  | gitPull {b : Bool} : Wants a (str% "checkbox_git_pull") (.box b) { a with gitPull := some b }

/-- One change after the other. -/
inductive WantsAll : CompareArgs → List (Str × Setting) → CompareArgs → Prop
  | nil {a : CompareArgs} : WantsAll a [] a
  | cons {a b c : CompareArgs} {id : Str} {x : Setting} {l : List (Str × Setting)} (h : Wants a id x b) (t : WantsAll b l c) : WantsAll a ((id, x) :: l) c

/-- A visit: beginning with the page for a query, the user changes controls one after the other, always after the page of the last change has come from the
server (`serves q page`: the server answers the query with the page). -/
inductive Browses (serves : Bytes → Str → Prop) (u : Utf8Lossy) : Bytes → List (Str × Setting) → Bytes → Str → Prop
  | here {q : Bytes} {page : Str} (h : serves q page) : Browses serves u q [] q page
  | change {q q' q'' : Bytes} {before page : Str} {id : Str} {x : Setting} {l : List (Str × Setting)} (h0 : serves q before)
      (h : changeControl u q id x = some q') (t : Browses serves u q' l q'' page) : Browses serves u q ((id, x) :: l) q'' page

/-- What arrives of the arguments of a query: three of them are decoded as HTML. -/
def asDecoded (ent : Entities) (a : CompareArgs) : CompareArgs :=
  { a with new := ent.decode a.new, old := ent.decode a.old, pathPattern := ent.decode a.pathPattern }

/-- From the moment `st0` on, the page with this query has been opened and the server has answered with this text; in each repository
only revisions in `N` have been asked for. -/
def Opened (W : World) (s : Site) (st0 : SiteState W.State) (N : Str → Str → Prop) (q : Bytes) (page : Str) : Prop :=
  ∃ st k x, Ahead W s st0 st ∧ (∀ repo, Company s repo (N repo) st.inbox) ∧ st0.inbox.length ≤ k ∧
    st.inbox[k]? = some (⟨str% "GET", utf8 (str% "/compare"), q⟩, x) ∧ s.Replied st k ⟨200, textHtml, page⟩

/-- `s` is `l` sorted by a relation `le`: the same elements, every pair in order, and equals remain in their order. -/
structure StablySorted {α : Type} (le : α → α → Prop) (l s : List α) : Prop where
  perm : s.Perm l
  sorted : s.Pairwise le
  stable : ∀ a b, le a b → le b a → [a, b].Sublist l → [a, b].Sublist s

/-- The order in which the rows of a report are shown: new calls first and removed calls last; of two calls in both versions, the first one has not visibly
(by 0.003 %, up to 4294967 %) increased less than the second one; calls without change are between visible (by 0.002 %) increases and decreases. -/
structure WorseFirst (c d : TermChange) : Prop where
  added : d.change = .added → c.change = .added
  removed : c.change = .removed → d.change = .removed
  percent : ∀ p q : ℚ, c.change = .changed → d.change = .changed → c.percent = .fin p → d.percent = .fin q → -4294967 ≤ p → q ≤ 4294967 →
    ¬ p + 3 / 1000 ≤ q
  infinite : ∀ p : ℚ, c.change = .changed → d.change = .changed → c.percent = .fin p → p ≤ 4294967 → d.percent ≠ .pinf
  increased : c.change = .unchanged → d.change = .changed → F64.le (.fin (1 / 500)) d.percent = false
  decreased : c.change = .changed → d.change = .unchanged → F64.le c.percent (.fin (-(1 / 500))) = false

/-- `x` is not greater than `y`, except perhaps if both are at least 2^53 or both at most -2^53 (the numbers of JavaScript are not exact there). -/
def NotAbove (x y : ℤ) : Prop := ∀ m : ℤ, |m| < 2 ^ 53 → y ≤ m → x ≤ m

/-- What a column of the table is sorted by: the old weight, the new weight, the relative change, the absolute change (between weights below 2^127). -/
def ColumnKey (k : Nat) (c : TermChange) (z : ℤ) : Prop :=
  match k with
  | 2 => z = (c.oldV.getD 0 : ℕ)
  | 3 => z = (c.newV.getD 0 : ℕ)
  | 4 => z = orderPercent c
  | 5 => (∀ o n, c.change = .changed → c.oldV = some o → c.newV = some n → o < 2 ^ 127 → n < 2 ^ 127 → z = (n : ℤ) - o) ∧
    (c.change = .added → z = 2 ^ 127 - 1) ∧ (c.change = .removed → z = -2 ^ 127) ∧ (c.change = .unchanged → z = 0)
  | _ => True

/-- The first row may be above the second one if the table is sorted by a column in a direction. -/
def InOrder (k : Nat) (d : Dir) (c c' : TermChange) : Prop :=
  ∃ z z', ColumnKey k c z ∧ ColumnKey k c' z' ∧ match d with
    | .asc => NotAbove z z'
    | .desc => NotAbove z' z

/-- The row of a table shows an entry of the report. -/
def RowOf (org : Str) (a : CompareArgs) (p : ExtrinsicDiff × TermChange) (row : DomRow) : Prop :=
  ∃ c0 c1 c2 c3 c4 c5 c6 c7 c8, row.2 = [c0, c1, c2, c3, c4, c5, c6, c7, c8] ∧ RowShows org a p.1 p.2 row.1 c0 c1 c2 c3 c4 c5 c6 c7 c8

/-- Characters of an address that are not encoded after `#`. -/
def FragmentSafe (s : Str) : Prop := ∀ c ∈ s, 0x20 < c.toNat ∧ c.toNat ≤ 0x7E ∧ c ≠ '"' ∧ c ≠ '<' ∧ c ≠ '>' ∧ c ≠ '`'

end Swc.Spec
