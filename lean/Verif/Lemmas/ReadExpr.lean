/-
The reader of `Verif.Model.RustText` reads every expression of the grammar of `Verif.Spec.RustGrammar`.
-/
import Verif.Lemmas.Lex

namespace Swc

open Spec RustText

/-! ### Weights: how much fuel a list of trees needs -/

mutual

/-- Weight of one tree. -/
def wtT : RTree → Nat
  | .tok _ => 4
  | .group _ ts => wt ts + 8

/-- Weight of a list of trees. -/
def wt : List RTree → Nat
  | [] => 0
  | t :: l => wtT t + wt l

end

mutual

theorem treeFuel_wt (t : RTree) : treeFuel t = wtT t := by
  cases t with
  | tok t => rfl
  | group d ts => rw [treeFuel, treesFuel_wt ts, wtT]

theorem treesFuel_wt (ts : List RTree) : treesFuel ts = wt ts + 4 := by
  cases ts with
  | nil => rfl
  | cons t ts => rw [treesFuel, treeFuel_wt t, treesFuel_wt ts, wt]; omega

end

theorem wt_append (a b : List RTree) : wt (a ++ b) = wt a + wt b := by
  induction a with
  | nil => simp [wt]
  | cons t a ih => simp only [List.cons_append, wt, ih]; omega

theorem wtT_pos (t : RTree) : 4 ≤ wtT t := by
  cases t <;> simp only [wtT] <;> omega

theorem length_le_wt (ts : List RTree) : 4 * ts.length ≤ wt ts := by
  induction ts with
  | nil => simp [wt]
  | cons t ts ih => have := wtT_pos t; simp only [wt, List.length_cons]; omega

/-! ### What may follow -/

/-- A path does not go on. -/
def endPath : List RTree → Bool
  | .tok (.sym .path) :: _ => false
  | _ => true

/-- An atom does not go on. -/
def endAtom : List RTree → Bool
  | .tok (.sym .path) :: _ => false
  | .group .brace _ :: _ => false
  | _ => true

/-- A postfix expression does not go on. -/
def endPost : List RTree → Bool
  | .tok (.sym .path) :: _ => false
  | .tok (.sym .dot) :: _ => false
  | .tok (.sym .question) :: _ => false
  | .group .brace _ :: _ => false
  | .group .paren _ :: _ => false
  | _ => true

/-- A type does not go on. -/
def endType : List RTree → Bool
  | .tok (.sym .path) :: _ => false
  | .tok (.sym .lt) :: _ => false
  | _ => true

/-- A factor does not go on. -/
def endFactor : List RTree → Bool
  | .tok (.sym .path) :: _ => false
  | .tok (.sym .dot) :: _ => false
  | .tok (.sym .question) :: _ => false
  | .tok (.sym .lt) :: _ => false
  | .tok (.ident x) :: _ => x ≠ str% "as"
  | .group .brace _ :: _ => false
  | .group .paren _ :: _ => false
  | _ => true

/-- A product does not go on. -/
def endProduct : List RTree → Bool
  | [] => true
  | .tok (.sym .comma) :: _ => true
  | .tok (.sym .semi) :: _ => true
  | .tok (.sym .plus) :: _ => true
  | _ => false

/-- A sum does not go on. -/
def endSum : List RTree → Bool
  | [] => true
  | .tok (.sym .comma) :: _ => true
  | .tok (.sym .semi) :: _ => true
  | _ => false

theorem endProduct_of_sum {r : List RTree} (h : endSum r = true) : endProduct r = true := by
  unfold endSum at h
  split at h <;> first | rfl | cases h

theorem endFactor_of_product {r : List RTree} (h : endProduct r = true) : endFactor r = true := by
  unfold endProduct at h
  split at h <;> first | rfl | cases h

theorem endPost_of_factor {r : List RTree} (h : endFactor r = true) : endPost r = true := by
  unfold endPost
  split <;> first | rfl | cases h

theorem endType_of_factor {r : List RTree} (h : endFactor r = true) : endType r = true := by
  unfold endType
  split <;> first | rfl | cases h

theorem endAtom_of_post {r : List RTree} (h : endPost r = true) : endAtom r = true := by
  unfold endAtom
  split <;> first | rfl | cases h

theorem endPath_of_atom {r : List RTree} (h : endAtom r = true) : endPath r = true := by
  unfold endPath
  split <;> first | rfl | cases h

theorem endPath_of_type {r : List RTree} (h : endType r = true) : endPath r = true := by
  unfold endPath
  split <;> first | rfl | cases h

/-! ### Paths and types -/

theorem keyword_iff {x : Str} : keyword x = true ↔ x ∈ reserved := by
  unfold keyword
  rw [decide_eq_true_iff]
  exact Iff.rfl

theorem Spec.Name.keyword {x : Str} (h : Name x) : keyword x = false := by
  rw [Bool.eq_false_iff]
  exact fun hk => h.2 (keyword_iff.1 hk)

theorem pathAt_end {g : List RTree → Option (List RTree)} {x : Str} {r r' : List RTree} (n : Nat) (hx : Name x) (hg : g r = some r') (hr : endPath r' = true) :
    pathAt g (n + 1) (id' x :: r) = some ([x], r') := by
  rw [pathAt, if_neg (by rw [hx.keyword]; decide), hg]
  split
  · rename_i heq; cases heq
  · rename_i heq; cases heq; cases hr
  · rename_i heq; cases heq; rfl

theorem skipTurbofish_end {r : List RTree} (h : endPath r = true) : skipTurbofish r = some r := by
  unfold skipTurbofish
  split
  · cases h
  · rfl

/-- A path in an expression. -/
theorem pathAt_expr {p : List Str} {ts rest : List RTree} (h : PathTrees p ts) (hr : endPath rest = true) :
    ∀ n, ts.length ≤ n → pathAt skipTurbofish n (ts ++ rest) = some (p, rest) := by
  induction h with
  | one hx =>
    intro n hn
    obtain ⟨m, rfl⟩ : ∃ m, n = m + 1 := ⟨n - 1, by simp at hn; omega⟩
    exact pathAt_end m hx (skipTurbofish_end hr) hr
  | @cons x p ts hx hp ih =>
    intro n hn
    obtain ⟨m, rfl⟩ : ∃ m, n = m + 1 := ⟨n - 1, by simp at hn; omega⟩
    have hs : skipTurbofish (sy .path :: (ts ++ rest)) = some (sy .path :: (ts ++ rest)) := by
      cases hp <;> rfl
    rw [List.cons_append, List.cons_append, pathAt, if_neg (by rw [hx.keyword]; decide), hs]
    show (pathAt skipTurbofish m (ts ++ rest)).map _ = _
    rw [ih m (by simp at hn; omega)]
    rfl

theorem skipAngles_balanced {a : List RTree} (h : Balanced a) : ∀ (n : Nat) (r : List RTree), skipAngles (n + 1) (a ++ r) = skipAngles (n + 1) r := by
  induction h with
  | nil => intro n r; rfl
  | @other t ts h _ ih =>
    intro n r
    rw [List.cons_append, ← ih n r]
    rw [skipAngles.eq_def]
    split
    · rename_i heq _; omega
    · rename_i heq; cases heq
    · rename_i heq; cases heq; exact absurd rfl h.1
    · rename_i heq; cases heq; exact absurd rfl h.2
    · rename_i h1 h2; cases h1; cases h2; rfl
  | @angles a ts _ _ ih1 ih2 =>
    intro n r
    rw [List.cons_append, List.append_assoc]
    show skipAngles (n + 2) (a ++ (sy .gt :: ts ++ r)) = _
    rw [ih1 (n + 1)]
    show skipAngles (n + 1) (ts ++ r) = _
    exact ih2 n r

theorem skipGenerics_some {gs r : List RTree} (h : Generics gs) (hr : gs = [] → endType r = true) : skipGenerics (gs ++ r) = some r := by
  cases h with
  | none =>
    have := hr rfl
    rw [List.nil_append]
    unfold skipGenerics
    split
    · cases this
    · rfl
  | @some a h =>
    rw [List.cons_append, List.append_assoc]
    show skipAngles 1 (a ++ ([sy .gt] ++ r)) = _
    rw [skipAngles_balanced h 0]
    show skipAngles 0 r = _
    cases r <;> rfl

theorem pathAt_type {p : List Str} {ts gs rest : List RTree} (h : PathTrees p ts) (hg : Generics gs) (hr : endType rest = true) :
    ∀ n, ts.length ≤ n → pathAt skipGenerics n (ts ++ gs ++ rest) = some (p, rest) := by
  induction h with
  | one hx =>
    intro n hn
    obtain ⟨m, rfl⟩ : ∃ m, n = m + 1 := ⟨n - 1, by simp at hn; omega⟩
    exact pathAt_end m hx (skipGenerics_some hg fun _ => hr) (endPath_of_type hr)
  | @cons x p ts hx hp ih =>
    intro n hn
    obtain ⟨m, rfl⟩ : ∃ m, n = m + 1 := ⟨n - 1, by simp at hn; omega⟩
    rw [List.cons_append, List.cons_append, List.cons_append, List.cons_append, pathAt, if_neg (by rw [hx.keyword]; decide)]
    show (pathAt skipGenerics m (ts ++ gs ++ rest)).map _ = _
    rw [ih m (by simp at hn; omega)]
    rfl

theorem pathTrees_cons {p : List Str} {ts : List RTree} (h : PathTrees p ts) : ∃ x r, ts = id' x :: r ∧ Name x := by
  cases h with
  | one h => exact ⟨_, _, rfl, h⟩
  | cons h _ => exact ⟨_, _, rfl, h⟩

/-- A type. -/
theorem typeAt_some {ty : Ty} {ts rest : List RTree} (h : TypeTrees ty ts) (hr : endType rest = true) :
    ∀ n, ts.length ≤ n → typeAt n (ts ++ rest) = some (ty, rest) := by
  intro n hn
  cases h with
  | unit =>
    obtain ⟨m, rfl⟩ : ∃ m, n = m + 1 := ⟨n - 1, by simp at hn; omega⟩
    rfl
  | @path p ts gs hp hg =>
    obtain ⟨x, r, rfl, _⟩ := pathTrees_cons hp
    obtain ⟨m, rfl⟩ : ∃ m, n = m + 1 := ⟨n - 1, by simp at hn; omega⟩
    have := pathAt_type hp hg hr (m + 1) (by simp at hn ⊢; omega)
    show (pathAt skipGenerics (m + 1) (id' x :: r ++ gs ++ rest)).map _ = _
    rw [this]
    rfl

/-! ### Expressions -/

/-- The first tree is no reserved word. -/
def startsFree : List RTree → Prop
  | .tok (.ident x) :: _ => x ∉ reserved
  | .tok (.int _) :: _ => True
  | .group .paren _ :: _ => True
  | _ => False

theorem startsFree_append {a : List RTree} (b : List RTree) (h : startsFree a) : startsFree (a ++ b) := by
  unfold startsFree at h
  split at h
  · exact h
  · trivial
  · trivial
  · exact h.elim

theorem startsFree_path {p : List Str} {ts : List RTree} (h : PathTrees p ts) : startsFree ts := by
  obtain ⟨x, r, rfl, hx⟩ := pathTrees_cons h
  exact hx.2

theorem startsFree_atom {e : Expr} {ts : List RTree} (h : Atom e ts) : startsFree ts := by
  cases h with
  | int => trivial
  | path hp => exact startsFree_path hp
  | paren _ => trivial
  | struct hp _ => exact startsFree_append _ (startsFree_path hp)

theorem startsFree_postfix {e : Expr} {ts : List RTree} (h : Postfix e ts) : startsFree ts :=
  match h with
  | .atom h => startsFree_atom h
  | .call h _ => startsFree_append _ (startsFree_postfix h)
  | .method h _ _ => startsFree_append _ (startsFree_postfix h)

theorem startsFree_factor {e : Expr} {ts : List RTree} (h : CastExpr e ts) : startsFree ts :=
  match h with
  | .postfix h => startsFree_postfix h
  | .cast h _ => startsFree_append _ (startsFree_factor h)

theorem startsFree_product {e : Expr} {ts : List RTree} (h : Product e ts) : startsFree ts :=
  match h with
  | .factor h => startsFree_factor h
  | .mul h _ => startsFree_append _ (startsFree_product h)

theorem startsFree_sum {e : Expr} {ts : List RTree} (h : Sum e ts) : startsFree ts :=
  match h with
  | .product h => startsFree_product h
  | .add h _ => startsFree_append _ (startsFree_sum h)

theorem startsFree_cons {ts : List RTree} (h : startsFree ts) : ∃ t r, ts = t :: r := by
  cases ts with
  | nil => exact h.elim
  | cons t r => exact ⟨t, r, rfl⟩

theorem wt_start {ts : List RTree} (h : startsFree ts) : 4 ≤ wt ts := by
  obtain ⟨t, r, rfl⟩ := startsFree_cons h
  have := wtT_pos t
  simp only [wt]; omega

theorem postfixAt_end {n : Nat} {e : Expr} {r : List RTree} (hn : 1 ≤ n) (h : endPost r = true) : postfixAt n e r = some (e, r) := by
  obtain ⟨m, rfl⟩ : ∃ m, n = m + 1 := ⟨n - 1, by omega⟩
  rw [postfixAt.eq_def]
  split
  · rename_i heq; omega
  all_goals first
    | (cases h; done)
    | rfl

theorem castAt_end {n : Nat} {e : Expr} {r : List RTree} (hn : 1 ≤ n) (h : endFactor r = true) : castAt n e r = some (e, r) := by
  obtain ⟨m, rfl⟩ : ∃ m, n = m + 1 := ⟨n - 1, by omega⟩
  rw [castAt.eq_def]
  split
  · rename_i heq; omega
  · rw [if_neg]
    simpa [endFactor] using h
  · rfl

theorem productAt_end {n : Nat} {e : Expr} {r : List RTree} (hn : 1 ≤ n) (h : endProduct r = true) : productAt n e r = some (e, r) := by
  obtain ⟨m, rfl⟩ : ∃ m, n = m + 1 := ⟨n - 1, by omega⟩
  unfold endProduct at h
  split at h <;> first | rfl | cases h

theorem sumRest_end {n : Nat} {e : Expr} {r : List RTree} (hn : 1 ≤ n) (h : endSum r = true) : sumRest n e r = some (e, r) := by
  obtain ⟨m, rfl⟩ : ∃ m, n = m + 1 := ⟨n - 1, by omega⟩
  unfold endSum at h
  split at h <;> first | rfl | cases h

/-- What an atom that starts with a path is read as. -/
def afterPath (n : Nat) (p : List Str) : List RTree → Option (Expr × List RTree)
  | .group .brace us :: r => (fieldList n us).map (fun fs => (.struct p fs, r))
  | r => some (.path p, r)

theorem atomAt_path {n : Nat} {p : List Str} {ts rest : List RTree} (h : PathTrees p ts) (hr : endPath rest = true) :
    atomAt (n + 1) (ts ++ rest) = afterPath n p rest := by
  obtain ⟨x, q, rfl, _⟩ := pathTrees_cons h
  have := pathAt_expr h hr ((q ++ rest).length + 1) (by simp)
  rw [List.cons_append] at this ⊢
  rw [atomAt, this, afterPath.eq_def]
  split
  · rename_i heq; cases heq
  · rename_i heq
    cases heq
    rfl
  · rename_i h2 heq
    cases heq
    split
    · exact (h2 _ _ rfl).elim
    · rfl

theorem exprList_one {n : Nat} {e : Expr} {ts : List RTree} (hs : startsFree ts) (h : sumAt n ts = some (e, [])) :
    exprList (n + 1) ts = some ([e], false) := by
  obtain ⟨t, r, rfl⟩ := startsFree_cons hs
  rw [exprList, h]
  rintro ⟨⟩

theorem args_cons {f : Expr} {l : List Expr} {t : Bool} {us : List RTree} (h : Args (f :: l) t us) : ∃ y r, us = y :: r := by
  cases h with
  | one h => exact startsFree_cons (startsFree_sum h)
  | last h => exact startsFree_cons (startsFree_append _ (startsFree_sum h))
  | cons h _ => exact startsFree_cons (startsFree_append _ (startsFree_sum h))

/-- Sums of weight below `N` are read. -/
def SumsRead (N : Nat) : Prop :=
  ∀ {e : Expr} {ts : List RTree}, Sum e ts → ∀ (rest : List RTree) (n : Nat), wt ts < N → wt ts + 2 ≤ n → endSum rest = true →
    sumAt n (ts ++ rest) = some (e, rest)

theorem args_read {N : Nat} (H : SumsRead N) {l : List Expr} {t : Bool} {us : List RTree} (h : Args l t us) (n : Nat) (hN : wt us < N) (hn : wt us + 4 ≤ n) : exprList n us = some (l, t) := by
  obtain ⟨j, rfl⟩ : ∃ j, n = j + 1 := ⟨n - 1, by omega⟩
  match h with
  | .nil => rfl
  | .one h =>
    have := H h [] j (by omega) (by omega) rfl
    rw [List.append_nil] at this
    exact exprList_one (startsFree_sum h) this
  | .last (ts := ts) h =>
    simp only [wt, wtT, wt_append] at hn hN
    have := H h [sy .comma] j (by omega) (by omega) rfl
    obtain ⟨x, r, rfl⟩ := startsFree_cons (startsFree_sum h)
    rw [exprList, this]
    rintro ⟨⟩
  | .cons (ts := ts) (us := us) (f := f) (l := l) h hl =>
    simp only [wt, wtT, wt_append] at hn hN
    have h1 := H h (sy .comma :: us) j (by omega) (by omega) rfl
    have h2 := args_read H hl j (by omega) (by omega)
    have hu : ∃ y r, us = y :: r := args_cons hl
    obtain ⟨x, r, rfl⟩ := startsFree_cons (startsFree_sum h)
    obtain ⟨y, r', rfl⟩ := hu
    rw [exprList, h1]
    · show (exprList j (y :: r')).map _ = _
      rw [h2]
      rfl
    · rintro ⟨⟩

theorem fields_read {N : Nat} (H : SumsRead N) {l : List (Option Str × Expr)} {us : List RTree} (h : Fields l us) (n : Nat) (hN : wt us < N) (hn : wt us + 4 ≤ n) : fieldList n us = some l := by
  obtain ⟨j, rfl⟩ : ∃ j, n = j + 1 := ⟨n - 1, by omega⟩
  match h with
  | .nil => rfl
  | .doc h =>
    simp only [wt, wtT] at hn hN
    rw [fieldList]
    exact fields_read H h j (by omega) (by omega)
  | .attr h =>
    simp only [wt, wtT] at hn hN
    rw [fieldList]
    exact fields_read H h j (by omega) (by omega)
  | .one hx h =>
    simp only [wt, wtT] at hn hN
    have := H h [] j (by omega) (by omega) rfl
    rw [List.append_nil] at this
    rw [fieldList, if_neg (by rw [hx.keyword]; decide), this]
  | .cons (ts := ts) (us := us) hx h hl =>
    simp only [wt, wtT, wt_append] at hn hN
    have h1 := H h (sy .comma :: us) j (by omega) (by omega) rfl
    have h2 := fields_read H hl j (by omega) (by omega)
    rw [fieldList, if_neg (by rw [hx.keyword]; decide), h1]
    show (fieldList j us).map _ = _
    rw [h2]
    rfl

theorem atom_read {N : Nat} (H : SumsRead N) {e : Expr} {ts : List RTree} (h : Atom e ts) (rest : List RTree) (n : Nat) (hN : wt ts ≤ N) (hn : wt ts ≤ n) (hr : endAtom rest = true) :
    atomAt n (ts ++ rest) = some (e, rest) := by
  have hw := wt_start (startsFree_atom h)
  obtain ⟨m, rfl⟩ : ∃ m, n = m + 1 := ⟨n - 1, by omega⟩
  match h with
  | .int => rfl
  | .path hp =>
    rw [atomAt_path hp (endPath_of_atom hr)]
    unfold afterPath
    split
    · cases hr
    · rfl
  | .paren (ts := us) hs =>
    simp only [wt, wtT] at hn hN
    obtain ⟨k, rfl⟩ : ∃ k, m = k + 1 := ⟨m - 1, by omega⟩
    have := H hs [] k (by omega) (by omega) rfl
    rw [List.append_nil] at this
    rw [List.singleton_append, atomAt, exprList_one (startsFree_sum hs) this]
  | .struct (ts := qs) (us := us) hp hf =>
    simp only [wt, wtT, wt_append] at hn hN
    rw [List.append_assoc, atomAt_path hp rfl]
    show (fieldList m us).map _ = _
    rw [fields_read H hf m (by omega) (by omega)]
    rfl

theorem postfix_read {N : Nat} (H : SumsRead N) {e : Expr} {ts : List RTree} (h : Postfix e ts) (rest : List RTree) (n : Nat) (hN : wt ts ≤ N) (hn : wt ts ≤ n) (hr : endAtom rest = true) :
    ∃ a r0 k, k + 4 ≤ wt ts ∧ atomAt n (ts ++ rest) = some (a, r0) ∧ ∀ m, wt ts ≤ m → postfixAt m a r0 = postfixAt (m - k) e rest := by
  match h with
  | .atom h => exact ⟨e, rest, 0, wt_start (startsFree_atom h), atom_read H h rest n (by omega) hn hr, fun _ _ => rfl⟩
  | .call (ts := ts) (us := us) h ha =>
    simp only [wt, wtT, wt_append] at hn hN
    obtain ⟨a, r0, k, hk, h1, h2⟩ := postfix_read H h (.group .paren us :: rest) n (by omega) (by omega) rfl
    refine ⟨a, r0, k + 1, by simp only [wt, wtT, wt_append]; omega, by rw [List.append_assoc]; exact h1, fun m hm => ?_⟩
    simp only [wt, wtT, wt_append] at hm
    rw [h2 m (by omega)]
    obtain ⟨j, hj⟩ : ∃ j, m - k = j + 1 := ⟨m - k - 1, by omega⟩
    have hj' : m - (k + 1) = j := by omega
    rw [hj, hj', postfixAt, args_read H ha j (by omega) (by omega)]
  | .method (ts := ts) (m := x) (us := us) h hm ha =>
    simp only [wt, wtT, wt_append] at hn hN
    obtain ⟨a, r0, k, hk, h1, h2⟩ := postfix_read H h (sy .dot :: id' x :: .group .paren us :: rest) n (by omega) (by omega) rfl
    refine ⟨a, r0, k + 1, by simp only [wt, wtT, wt_append]; omega, by rw [List.append_assoc]; exact h1, fun m hm => ?_⟩
    simp only [wt, wtT, wt_append] at hm
    rw [h2 m (by omega)]
    obtain ⟨j, hj⟩ : ∃ j, m - k = j + 1 := ⟨m - k - 1, by omega⟩
    have hj' : m - (k + 1) = j := by omega
    rw [hj, hj', postfixAt]
    show (match exprList j us with
      | none => none
      | some (l, t) => postfixAt j (.methodCall _ _ l t) rest) = _
    rw [args_read H ha j (by omega) (by omega)]

theorem factor_steps {N : Nat} (H : SumsRead N) {e : Expr} {ts : List RTree} (h : CastExpr e ts) (rest : List RTree) (n : Nat) (hN : wt ts ≤ N) (hn : wt ts ≤ n) (hr : endPost rest = true) (hl : endType rest = true) :
    ∃ a r0 b r1 k, k + 4 ≤ wt ts ∧ atomAt n (ts ++ rest) = some (a, r0) ∧ postfixAt n a r0 = some (b, r1) ∧
      ∀ m, wt ts ≤ m → castAt m b r1 = castAt (m - k) e rest := by
  match h with
  | .postfix h =>
    obtain ⟨a, r0, k, hk, h1, h2⟩ := postfix_read H h rest n (by omega) hn (endAtom_of_post hr)
    exact ⟨a, r0, e, rest, 0, by have := wt_start (startsFree_postfix h); omega, h1, by rw [h2 n hn, postfixAt_end (by omega) hr], fun _ _ => rfl⟩
  | .cast (ts := ts) (us := us) h ht =>
    simp only [wt, wtT, wt_append] at hn hN
    obtain ⟨a, r0, b, r1, k, hk, h1, h2, h3⟩ := factor_steps H h (id' (str% "as") :: (us ++ rest)) n (by omega) (by omega) rfl rfl
    refine ⟨a, r0, b, r1, k + 1, by simp only [wt, wtT, wt_append]; omega, by rw [List.append_assoc]; exact h1, h2, fun m hm => ?_⟩
    simp only [wt, wtT, wt_append] at hm
    rw [h3 m (by omega)]
    obtain ⟨j, hj⟩ : ∃ j, m - k = j + 1 := ⟨m - k - 1, by omega⟩
    have hj' : m - (k + 1) = j := by omega
    rw [hj, hj', castAt, if_pos rfl, typeAt_some ht hl _ (by simp; omega)]

theorem factor_read {N : Nat} (H : SumsRead N) {e : Expr} {ts : List RTree} (h : CastExpr e ts) (rest : List RTree) (n : Nat) (hN : wt ts ≤ N) (hn : wt ts + 1 ≤ n) (hr : endFactor rest = true) :
    factorAt n (ts ++ rest) = some (e, rest) := by
  obtain ⟨j, rfl⟩ : ∃ j, n = j + 1 := ⟨n - 1, by omega⟩
  obtain ⟨a, r0, b, r1, k, hk, h1, h2, h3⟩ := factor_steps H h rest j (by omega) (by omega) (endPost_of_factor hr) (endType_of_factor hr)
  rw [factorAt, h1]
  show (match postfixAt j a r0 with
      | none => none
      | some (e, r) => castAt j e r) = _
  rw [h2]
  show castAt j b r1 = _
  rw [h3 j (by omega), castAt_end (by omega) hr]

theorem product_read {N : Nat} (H : SumsRead N) {e : Expr} {ts : List RTree} (h : Product e ts) (rest : List RTree) (n : Nat) (hN : wt ts ≤ N) (hn : wt ts + 1 ≤ n) (hr : endFactor rest = true) :
    ∃ f r0 k, k + 4 ≤ wt ts ∧ factorAt n (ts ++ rest) = some (f, r0) ∧ ∀ m, wt ts ≤ m → productAt m f r0 = productAt (m - k) e rest := by
  match h with
  | .factor h => exact ⟨e, rest, 0, wt_start (startsFree_factor h), factor_read H h rest n (by omega) hn hr, fun _ _ => rfl⟩
  | .mul (ts := ts) (us := us) h hf =>
    simp only [wt, wtT, wt_append] at hn hN
    obtain ⟨f, r0, k, hk, h1, h2⟩ := product_read H h (sy .star :: (us ++ rest)) n (by omega) (by omega) rfl
    refine ⟨f, r0, k + 1, by simp only [wt, wtT, wt_append]; omega, by rw [List.append_assoc]; exact h1, fun m hm => ?_⟩
    simp only [wt, wtT, wt_append] at hm
    rw [h2 m (by omega)]
    obtain ⟨j, hj⟩ : ∃ j, m - k = j + 1 := ⟨m - k - 1, by omega⟩
    have hj' : m - (k + 1) = j := by omega
    rw [hj, hj', productAt]
    show (match factorAt j (us ++ rest) with
      | none => none
      | some (f, r) => productAt j (.binary _ .mul f) r) = _
    rw [factor_read H hf rest j (by omega) (by omega) hr]

theorem sum_steps {N : Nat} (H : SumsRead N) {e : Expr} {ts : List RTree} (h : Sum e ts) (rest : List RTree) (n : Nat) (hN : wt ts ≤ N) (hn : wt ts + 1 ≤ n) (hr : endProduct rest = true) :
    ∃ f r0 g r1 k, k + 4 ≤ wt ts ∧ factorAt n (ts ++ rest) = some (f, r0) ∧ productAt n f r0 = some (g, r1) ∧
      ∀ m, wt ts ≤ m → sumRest m g r1 = sumRest (m - k) e rest := by
  match h with
  | .product h =>
    obtain ⟨f, r0, k, hk, h1, h2⟩ := product_read H h rest n (by omega) hn (endFactor_of_product hr)
    exact ⟨f, r0, e, rest, 0, by omega, h1, by rw [h2 n (by omega), productAt_end (by omega) hr], fun _ _ => rfl⟩
  | .add (ts := ts) (us := us) h hf =>
    simp only [wt, wtT, wt_append] at hn hN
    obtain ⟨f, r0, g, r1, k, hk, h1, h2, h3⟩ := sum_steps H h (sy .plus :: (us ++ rest)) n (by omega) (by omega) rfl
    refine ⟨f, r0, g, r1, k + 1, by simp only [wt, wtT, wt_append]; omega, by rw [List.append_assoc]; exact h1, h2, fun m hm => ?_⟩
    simp only [wt, wtT, wt_append] at hm
    rw [h3 m (by omega)]
    obtain ⟨j, hj⟩ : ∃ j, m - k = j + 1 := ⟨m - k - 1, by omega⟩
    have hj' : m - (k + 1) = j := by omega
    obtain ⟨f', r0', k', hk', h1', h2'⟩ := product_read H hf rest j (by omega) (by omega) (endFactor_of_product hr)
    rw [hj, hj', sumRest]
    show (match factorAt j (us ++ rest) with
      | none => none
      | some (f, r) =>
        match productAt j f r with
        | none => none
        | some (f, r) => sumRest j (.binary _ .add f) r) = _
    rw [h1']
    show (match productAt j f' r0' with
        | none => none
        | some (f, r) => sumRest j (.binary _ .add f) r) = _
    rw [h2' j (by omega), productAt_end (by omega) hr]

theorem sum_read {N : Nat} (H : SumsRead N) {e : Expr} {ts : List RTree} (h : Sum e ts) (rest : List RTree) (n : Nat) (hN : wt ts ≤ N) (hn : wt ts + 2 ≤ n) (hr : endSum rest = true) :
    sumAt n (ts ++ rest) = some (e, rest) := by
  obtain ⟨j, rfl⟩ : ∃ j, n = j + 1 := ⟨n - 1, by omega⟩
  obtain ⟨f, r0, g, r1, k, hk, h1, h2, h3⟩ := sum_steps H h rest j (by omega) (by omega) (endProduct_of_sum hr)
  rw [sumAt, h1]
  show (match productAt j f r0 with
      | none => none
      | some (e, r) => sumRest j e r) = _
  rw [h2]
  show sumRest j g r1 = _
  rw [h3 j (by omega), sumRest_end (by omega) hr]


theorem sums_read (N : Nat) : SumsRead N := by
  induction N with
  | zero => exact fun _ _ _ h => absurd h (Nat.not_lt_zero _)
  | succ N ih => exact fun h rest n hN hn hr => sum_read ih h rest n (by omega) hn hr

/-- An expression is read whole, up to a comma, a semicolon or the end. -/
theorem exprAt_read {e : Expr} {ts : List RTree} (h : Sum e ts) {rest : List RTree} (hr : endSum rest = true) :
    exprAt (ts ++ rest) = some (e, rest) := by
  rw [exprAt, treesFuel_wt, wt_append]
  exact sums_read (wt ts + 1) h rest _ (by omega) (by omega) hr

end Swc
