/-
What is read from a text is not larger than the text: every token takes a character, and every part of an expression a token.
-/
import Verif.Model.RustText
import Verif.Spec.Cost
import Verif.Spec.PalletFile

namespace Swc.TextSize

open Swc Swc.RustText Swc.Spec

/-! ### Tokens -/

theorem dropWhile_le {α : Type} (p : α → Bool) (l : List α) : (l.dropWhile p).length ≤ l.length := by
  induction l with
  | nil => exact Nat.le_refl _
  | cons a l ih =>
    rw [List.dropWhile_cons]
    split
    · exact Nat.le_succ_of_le ih
    · exact Nat.le_refl _

theorem tail_le {α : Type} (l : List α) : l.tail.length ≤ l.length := by simp

theorem stringEnd_le : ∀ (s : Str) (p : Str × Str), stringEnd s = some p → p.2.length ≤ s.length := by
  intro s
  induction s using stringEnd.induct with
  | case1 => intro p h; simp [stringEnd] at h
  | case2 r => intro p h; simp only [stringEnd, Option.some.injEq] at h; subst h; simp
  | case3 c r ih =>
    intro p h
    simp only [stringEnd, Option.map_eq_some_iff] at h
    obtain ⟨q, hq, rfl⟩ := h
    have := ih q hq
    simp only [List.length_cons]; omega
  | case4 c r h1 h2 ih =>
    intro p h
    rw [stringEnd.eq_4 _ _ (by assumption) (by assumption), Option.map_eq_some_iff] at h
    obtain ⟨q, hq, rfl⟩ := h
    have := ih q hq
    simp only [List.length_cons]; omega

theorem commentEnd_le (n : Nat) (s r : Str) (h : commentEnd n s = some r) : r.length ≤ s.length := by
  induction n, s using commentEnd.induct with
  | case1 => simp [commentEnd] at h
  | case2 r' => simp only [commentEnd, Option.some.injEq] at h; subst h; simp only [List.length_cons]; omega
  | case3 n r' ih => rw [commentEnd] at h; have := ih h; simp only [List.length_cons]; omega
  | case4 n r' ih => rw [commentEnd] at h; have := ih h; simp only [List.length_cons]; omega
  | case5 n c r' h1 h2 h3 ih => rw [commentEnd.eq_5 _ _ _ (by assumption) (by assumption) (by assumption)] at h; have := ih h; simp only [List.length_cons]; omega

theorem lineComment_le (s : Str) : (lineComment s).length ≤ 1 := by
  unfold lineComment
  split <;> simp

theorem blockComment_le {s : Str} {t : List RTok} {r : Str} (h : blockComment s = some (t, r)) : t.length ≤ 1 ∧ r.length ≤ s.length := by
  unfold blockComment at h
  split at h <;> rw [Option.map_eq_some_iff] at h <;> obtain ⟨q, hq, he⟩ := h <;> cases he
  · have := commentEnd_le _ _ _ hq
    have := tail_le s
    exact ⟨Nat.le_refl _, by omega⟩
  · exact ⟨Nat.zero_le _, commentEnd_le _ _ _ hq⟩

theorem lexOther_le {c : Char} {s : Str} {t : List RTok} {r : Str} (h : lexOther c s = some (t, r)) : t.length ≤ 1 ∧ r.length ≤ s.length := by
  unfold lexOther at h
  have ht := tail_le s
  split at h
  · cases h
    have := dropWhile_le (· != '\n') s.tail
    exact ⟨lineComment_le _, by omega⟩
  split at h
  · have := blockComment_le h
    exact ⟨this.1, by omega⟩
  split at h
  · cases h; exact ⟨Nat.le_refl _, ht⟩
  split at h
  · cases h; exact ⟨Nat.le_refl _, ht⟩
  split at h
  · cases h; exact ⟨Nat.le_refl _, ht⟩
  split at h
  · rw [Option.map_eq_some_iff] at h
    obtain ⟨q, hq, he⟩ := h
    cases he
    exact ⟨Nat.le_refl _, stringEnd_le _ _ hq⟩
  split at h
  · cases s with
    | nil => cases h
    | cons d r' =>
      simp only at h
      split at h
      · cases h
        have := tail_le r'
        exact ⟨Nat.le_refl _, by simp only [List.length_cons]; omega⟩
      split at h
      · cases h
        have := dropWhile_le wordChar r'
        exact ⟨Nat.le_refl _, by simp only [List.length_cons]; omega⟩
      · cases h
  · rw [Option.map_eq_some_iff] at h
    obtain ⟨q, hq, he⟩ := h
    cases he
    exact ⟨Nat.le_refl _, Nat.le_refl _⟩

theorem lexWord_le {c : Char} {s : Str} {t : List RTok} {r : Str} (h : lexWord c s = some (t, r)) : t.length ≤ 1 ∧ r.length ≤ s.length := by
  unfold lexWord at h
  have hd := dropWhile_le wordChar s
  split at h
  · cases h; exact ⟨Nat.le_refl _, Nat.zero_le _⟩
  · next d r' he =>
    rw [he] at hd
    split at h
    · cases h
    · cases h; exact ⟨Nat.le_refl _, hd⟩

theorem lexNumber_le {c : Char} {s : Str} {t : List RTok} {r : Str} (h : lexNumber c s = some (t, r)) : t.length ≤ 1 ∧ r.length ≤ s.length := by
  unfold lexNumber at h
  have hd := dropWhile_le wordChar s
  simp only at h
  split at h
  · next d r' he =>
    rw [he] at hd
    have hd2 := dropWhile_le wordChar r'
    simp only [List.length_cons] at hd
    split at h
    · cases h; exact ⟨Nat.le_refl _, by omega⟩
    split at h
    · rw [Option.map_eq_some_iff] at h
      obtain ⟨q, hq, he⟩ := h
      cases he
      exact ⟨Nat.le_refl _, by simp only [List.length_cons]; omega⟩
    · cases h
  · rw [Option.map_eq_some_iff] at h
    obtain ⟨q, hq, he⟩ := h
    cases he
    exact ⟨Nat.le_refl _, hd⟩

theorem lexStep_le {c : Char} {s : Str} {t : List RTok} {r : Str} (h : lexStep c s = some (t, r)) : t.length ≤ 1 ∧ r.length ≤ s.length := by
  unfold lexStep at h
  split at h
  · cases h; exact ⟨Nat.zero_le _, Nat.le_refl _⟩
  split at h
  · exact lexWord_le h
  split at h
  · exact lexNumber_le h
  split at h
  · cases h; exact ⟨Nat.le_refl _, Nat.le_refl _⟩
  · exact lexOther_le h

theorem lexN_le : ∀ (n : Nat) (s : Str) (ts : List RTok), lexN n s = some ts → ts.length ≤ s.length := by
  intro n
  induction n with
  | zero =>
    intro s ts h
    cases s with
    | nil => cases h; exact Nat.le_refl _
    | cons => cases h
  | succ n ih =>
    intro s ts h
    cases s with
    | nil => cases h; exact Nat.le_refl _
    | cons c s =>
      simp only [lexN, Option.bind_eq_bind, Option.bind_eq_some_iff] at h
      obtain ⟨⟨t, r⟩, h1, l, h2, h3⟩ := h
      cases h3
      have k1 := lexStep_le h1
      have k2 : l.length ≤ r.length := ih _ _ h2
      change (t ++ l).length ≤ _
      rw [List.length_append, List.length_cons]
      omega

theorem lex_le {s : Str} {ts : List RTok} (h : lex s = some ts) : ts.length ≤ s.length := lexN_le _ _ _ h

/-! ### Token trees -/

mutual

/-- The number of tokens of a tree. -/
def weigh : RTree → Nat
  | .tok _ => 1
  | .group _ ts => weighAll ts + 2

/-- The number of tokens of a list of trees. -/
def weighAll : List RTree → Nat
  | [] => 0
  | t :: l => weigh t + weighAll l

end

theorem weighAll_append (l m : List RTree) : weighAll (l ++ m) = weighAll l + weighAll m := by
  induction l with
  | nil => simp [weighAll]
  | cons t l ih => rw [List.cons_append, weighAll, weighAll, ih, Nat.add_assoc]

theorem weighAll_reverse (l : List RTree) : weighAll l.reverse = weighAll l := by
  induction l with
  | nil => rfl
  | cons t l ih => rw [List.reverse_cons, weighAll_append, ih, weighAll, weighAll, weighAll]; omega

/-- The tokens of the brackets that are open, and before them. -/
def stackWeight : List (Delim × List RTree) → Nat
  | [] => 0
  | p :: st => weighAll p.2 + 1 + stackWeight st

theorem treesGo_weight : ∀ (toks : List RTok) (cur : List RTree) (st : List (Delim × List RTree)) (ts : List RTree),
    treesGo toks cur st = some ts → weighAll ts = toks.length + weighAll cur + stackWeight st := by
  intro toks cur st
  induction toks, cur, st using treesGo.induct with
  | case1 cur => intro ts h; simp only [treesGo, Option.some.injEq] at h; subst h; simp [weighAll_reverse, stackWeight]
  | case2 => intro ts h; simp [treesGo] at h
  | case3 d r cur st ih =>
    intro ts h
    rw [treesGo] at h
    rw [ih ts h, stackWeight, weighAll, List.length_cons]
    simp only; omega
  | case4 =>
    rename_i ih
    intro ts h
    rw [treesGo, if_pos rfl] at h
    rw [ih ts h, stackWeight, weighAll, weigh, weighAll_reverse, List.length_cons]
    simp only; omega
  | case5 =>
    rename_i hne
    intro ts h
    rw [treesGo, if_neg hne] at h
    cases h
  | case6 => intro ts h; simp [treesGo] at h
  | case7 =>
    rename_i h1 h2 h3 ih
    intro ts h
    rw [treesGo.eq_6 _ _ _ _ h1 h2 h3] at h
    rw [ih ts h, weighAll, weigh, List.length_cons]
    omega

theorem trees_weight {toks : List RTok} {ts : List RTree} (h : trees toks = some ts) : weighAll ts = toks.length := by
  rw [treesGo_weight _ _ _ _ h]
  simp [weighAll, stackWeight]

/-! ### Paths and types -/

theorem skipAngles_le (n : Nat) (ts r : List RTree) (h : skipAngles n ts = some r) : weighAll r ≤ weighAll ts := by
  induction n, ts using skipAngles.induct with
  | case1 r' => rw [skipAngles] at h; cases h; exact Nat.le_refl _
  | case2 => cases h
  | case3 n r' ih => rw [skipAngles] at h; have := ih h; rw [weighAll]; omega
  | case4 n r' ih => rw [skipAngles] at h; have := ih h; rw [weighAll]; omega
  | case5 n t r' h1 h2 ih => rw [skipAngles.eq_5 _ _ _ (by assumption) (by assumption)] at h; have := ih h; rw [weighAll]; omega

theorem skipGenerics_le {ts r : List RTree} (h : skipGenerics ts = some r) : weighAll r ≤ weighAll ts := by
  unfold skipGenerics at h
  split at h
  · have := skipAngles_le _ _ _ h; rw [weighAll]; omega
  · cases h; exact Nat.le_refl _

theorem skipTurbofish_le {ts r : List RTree} (h : skipTurbofish ts = some r) : weighAll r ≤ weighAll ts := by
  unfold skipTurbofish at h
  split at h
  · have := skipAngles_le _ _ _ h; rw [weighAll, weighAll]; omega
  · cases h; exact Nat.le_refl _

theorem pathAt_le {g : List RTree → Option (List RTree)} (hg : ∀ ts r, g ts = some r → weighAll r ≤ weighAll ts) :
    ∀ (n : Nat) (ts : List RTree) (p : List Str × List RTree), pathAt g n ts = some p → weighAll p.2 + 1 ≤ weighAll ts := by
  intro n
  induction n with
  | zero => intro ts p h; cases h
  | succ n ih =>
    intro ts p h
    unfold pathAt at h
    split at h
    · cases h
    · next heq =>
      cases heq
      split at h
      · cases h
      split at h
      · cases h
      · next hr =>
        have k := hg _ _ hr
        rw [Option.map_eq_some_iff] at h
        obtain ⟨q, hq, rfl⟩ := h
        have := ih _ _ hq
        rw [weighAll, weigh] at k ⊢
        simp only; omega
      · next hr =>
        have k := hg _ _ hr
        cases h
        rw [weighAll, weigh]
        simp only; omega
    · cases h

theorem typeAt_le : ∀ (n : Nat) (ts : List RTree) (p : Ty × List RTree), typeAt n ts = some p → weighAll p.2 ≤ weighAll ts := by
  intro n
  induction n with
  | zero => intro ts p h; cases h
  | succ n ih =>
    intro ts p h
    unfold typeAt at h
    split at h
    · cases h
    · cases h; simp only [weighAll]; omega
    · cases h; simp only [weighAll]; omega
    · cases h; simp only [weighAll]; omega
    · rw [Option.map_eq_some_iff] at h
      obtain ⟨q, hq, rfl⟩ := h
      have := pathAt_le (fun _ _ => skipGenerics_le) _ _ _ hq
      simp only [weighAll]; omega
    · next heq =>
      cases heq
      rw [Option.map_eq_some_iff] at h
      obtain ⟨q, hq, rfl⟩ := h
      have := ih _ _ hq
      simp only [weighAll]; omega
    · rename_i heq
      cases heq
      rw [Option.map_eq_some_iff] at h
      obtain ⟨q, hq, rfl⟩ := h
      have := ih _ _ hq
      simp only [weighAll]; omega
    · rw [Option.map_eq_some_iff] at h
      obtain ⟨q, hq, rfl⟩ := h
      have := pathAt_le (fun _ _ => skipGenerics_le) _ _ _ hq
      simp only; omega

/-! ### Expressions -/

theorem pieces_pos (e : Expr) : 1 ≤ pieces e := by
  cases e <;> simp [pieces]

/-- Every part of an expression takes a token. -/
structure ReadsSmall (n : Nat) : Prop where
  list : ∀ ts l t, exprList n ts = some (l, t) → piecesAll l ≤ weighAll ts
  atom : ∀ ts e r, atomAt n ts = some (e, r) → pieces e + weighAll r ≤ weighAll ts
  after : ∀ e₀ ts e r, postfixAt n e₀ ts = some (e, r) → pieces e + weighAll r ≤ pieces e₀ + weighAll ts
  cast : ∀ e₀ ts e r, castAt n e₀ ts = some (e, r) → pieces e + weighAll r ≤ pieces e₀ + weighAll ts
  factor : ∀ ts e r, factorAt n ts = some (e, r) → pieces e + weighAll r ≤ weighAll ts
  product : ∀ e₀ ts e r, productAt n e₀ ts = some (e, r) → pieces e + weighAll r ≤ pieces e₀ + weighAll ts
  sumRest : ∀ e₀ ts e r, sumRest n e₀ ts = some (e, r) → pieces e + weighAll r ≤ pieces e₀ + weighAll ts
  sum : ∀ ts e r, sumAt n ts = some (e, r) → pieces e + weighAll r ≤ weighAll ts

theorem readsSmall (n : Nat) : ReadsSmall n := by
  induction n with
  | zero => constructor <;> intros <;> rename_i h <;> simp [exprList, atomAt, postfixAt, castAt, factorAt, productAt, RustText.sumRest, sumAt] at h
  | succ n ih =>
    constructor
    · intro ts l t h
      unfold exprList at h
      split at h
      · cases h
      · cases h; exact Nat.zero_le _
      · rename_i hm _
        cases hm
        split at h
        · next e hs => cases h; have := ih.sum _ _ _ hs; simp only [piecesAll, weighAll] at this ⊢; omega
        · next e hs => cases h; have := ih.sum _ _ _ hs; simp only [piecesAll, weighAll] at this ⊢; omega
        · next e r _ hs =>
          rw [Option.map_eq_some_iff] at h
          obtain ⟨⟨l', t'⟩, hl, he⟩ := h
          cases he
          have := ih.sum _ _ _ hs
          have := ih.list _ _ _ hl
          simp only [piecesAll, weighAll, weigh] at *; omega
        · cases h
    · intro ts e r h
      unfold atomAt at h
      split at h
      · cases h
      · cases h; simp only [pieces, weighAll, weigh]; omega
      · cases h; simp only [pieces, weighAll, weigh]; omega
      · rename_i hm
        cases hm
        split at h
        · cases h
        · next hl => cases h; have := ih.list _ _ _ hl; simp only [pieces, piecesAll, weighAll, weigh] at *; omega
        · cases h; simp only [pieces, weighAll, weigh]; omega
      · rename_i hm
        cases hm
        split at h
        · cases h
        · next hp =>
          have := pathAt_le (fun _ _ => skipTurbofish_le) _ _ _ hp
          rw [Option.map_eq_some_iff] at h
          obtain ⟨fs, _, he⟩ := h
          cases he
          simp only [pieces, weighAll, weigh] at *; omega
        · next hp =>
          have := pathAt_le (fun _ _ => skipTurbofish_le) _ _ _ hp
          cases h
          simp only [pieces, weighAll, weigh] at *; omega
      · cases h
    · intro e₀ ts e r h
      have hpos := pieces_pos e₀
      unfold postfixAt at h
      split at h
      · cases h
      · rename_i hm
        cases hm
        split at h
        · cases h
        · next hl =>
          have := ih.list _ _ _ hl
          have := ih.after _ _ _ _ h
          simp only [pieces, weighAll, weigh] at *; omega
      · rename_i hm
        cases hm
        split at h
        · cases h
        · next hr =>
          have := skipTurbofish_le hr
          split at h
          · cases h
          · next hl =>
            have := ih.list _ _ _ hl
            have := ih.after _ _ _ _ h
            simp only [pieces, weighAll, weigh] at *; omega
        · next hr =>
          have := skipTurbofish_le hr
          have := ih.after _ _ _ _ h
          simp only [pieces, weighAll, weigh] at *; omega
      · rename_i hm
        cases hm
        have := ih.after _ _ _ _ h
        simp only [pieces, weighAll, weigh] at *; omega
      · cases h
      · rename_i hm
        cases hm
        have := ih.after _ _ _ _ h
        simp only [pieces, weighAll, weigh] at *; omega
      · cases h; exact Nat.le_refl _
    · intro e₀ ts e r h
      unfold castAt at h
      split at h
      · cases h
      · rename_i hm
        cases hm
        split at h
        · split at h
          · cases h
          · next hr =>
            have := typeAt_le _ _ _ hr
            have := ih.cast _ _ _ _ h
            simp only [pieces, weighAll, weigh] at *; omega
        · cases h; exact Nat.le_refl _
      · cases h; exact Nat.le_refl _
    · intro ts e r h
      unfold factorAt at h
      split at h
      · cases h
      · next e1 r1 h1 =>
        split at h
        · cases h
        · next h2 =>
          have := ih.atom _ _ _ h1
          have := ih.after _ _ _ _ h2
          have := ih.cast _ _ _ _ h
          omega
    · intro e₀ ts e r h
      unfold productAt at h
      split at h
      · cases h
      · rename_i hm
        cases hm
        split at h
        · cases h; exact Nat.le_refl _
        · split at h
          · cases h
          · next h1 =>
            have := ih.factor _ _ _ h1
            have := ih.product _ _ _ _ h
            simp only [pieces, weighAll, weigh] at *; omega
      · cases h; exact Nat.le_refl _
    · intro e₀ ts e r h
      unfold RustText.sumRest at h
      split at h
      · cases h
      · rename_i hm
        cases hm
        split at h
        · cases h; exact Nat.le_refl _
        · split at h
          · cases h
          · next h1 =>
            split at h
            · cases h
            · next h2 =>
              have := ih.factor _ _ _ h1
              have := ih.product _ _ _ _ h2
              have := ih.sumRest _ _ _ _ h
              simp only [pieces, weighAll, weigh] at *; omega
      · cases h; exact Nat.le_refl _
    · intro ts e r h
      unfold sumAt at h
      split at h
      · cases h
      · next e1 r1 h1 =>
        split at h
        · cases h
        · next h2 =>
          have := ih.factor _ _ _ h1
          have := ih.product _ _ _ _ h2
          have := ih.sumRest _ _ _ _ h
          omega

theorem exprAt_le {ts r : List RTree} {e : Expr} (h : exprAt ts = some (e, r)) : pieces e + weighAll r ≤ weighAll ts := (readsSmall _).sum _ _ _ h

/-! ### Items -/

/-- The parts of the expressions among the statements. -/
def stmtPieces : List Stmt → Nat
  | [] => 0
  | .expr e :: l => pieces e + stmtPieces l
  | .other :: l => stmtPieces l

/-- The parts of the bodies of functions. -/
def fnPieces (l : List ImplFn) : Nat := (l.map fun f => stmtPieces f.stmts).sum

/-- The parts of the bodies of the functions of all blocks. -/
def itemPieces : List Item → Nat
  | [] => 0
  | .impl _ items :: l => fnPieces (functions items) + itemPieces l
  | _ :: l => itemPieces l

theorem afterSemi_le (ts r : List RTree) (h : afterSemi ts = some r) : weighAll r ≤ weighAll ts := by
  induction ts using afterSemi.induct with
  | case1 => cases h
  | case2 r' => rw [afterSemi] at h; cases h; simp only [weighAll]; omega
  | case3 t r' _ ih => rw [afterSemi.eq_3 _ _ (by assumption)] at h; have := ih h; simp only [weighAll]; omega

theorem afterBody_le (ts r : List RTree) (h : afterBody ts = some r) : weighAll r ≤ weighAll ts := by
  induction ts using afterBody.induct with
  | case1 => cases h
  | case2 _ r' => rw [afterBody] at h; cases h; simp only [weighAll]; omega
  | case3 r' => rw [afterBody] at h; cases h; simp only [weighAll]; omega
  | case4 t r' _ _ ih => rw [afterBody.eq_4 _ _ (by assumption) (by assumption)] at h; have := ih h; simp only [weighAll]; omega

theorem nextBrace_le (ts b r : List RTree) (h : nextBrace ts = some (b, r)) : weighAll b + weighAll r ≤ weighAll ts := by
  induction ts using nextBrace.induct with
  | case1 => cases h
  | case2 _ r' => rw [nextBrace] at h; cases h; simp only [weighAll, weigh]; omega
  | case3 r' => rw [nextBrace] at h; cases h
  | case4 t r' _ _ ih => rw [nextBrace.eq_4 _ _ (by assumption) (by assumption)] at h; have := ih h; simp only [weighAll]; omega

theorem attrsAt_le' : ∀ (n : Nat) (ts : List RTree), ts.length ≤ n → ∀ l r, attrsAt ts = some (l, r) → weighAll r ≤ weighAll ts := by
  intro n
  induction n with
  | zero =>
    intro ts hn l r h
    cases ts with
    | nil => rw [attrsAt.eq_3 _ (by simp) (by simp)] at h; cases h; exact Nat.le_refl _
    | cons => simp at hn
  | succ n ih =>
    intro ts hn l r h
    unfold attrsAt at h
    split at h
    · split at h
      · next h2 => cases h; have := ih _ (by simp only [List.length_cons] at hn; omega) _ _ h2; simp only [weighAll]; omega
      · cases h
    · split at h
      · next h2 => cases h; have := ih _ (by simp only [List.length_cons] at hn; omega) _ _ h2; simp only [weighAll]; omega
      · cases h
    · cases h; exact Nat.le_refl _

theorem attrsAt_le {ts r : List RTree} {l : List Attr} (h : attrsAt ts = some (l, r)) : weighAll r ≤ weighAll ts := attrsAt_le' _ ts (Nat.le_refl _) _ _ h

theorem skipInner_le (ts : List RTree) : weighAll (skipInner ts) ≤ weighAll ts := by
  induction ts using skipInner.induct with
  | case1 _ r ih => rw [skipInner]; simp only [weighAll]; omega
  | case2 _ r ih => rw [skipInner]; simp only [weighAll]; omega
  | case3 r h1 h2 => rw [skipInner.eq_3 _ (by assumption) (by assumption)]

theorem skipVis_le (ts : List RTree) : weighAll (skipVis ts) ≤ weighAll ts := by
  unfold skipVis
  split
  · split
    · simp only [weighAll]; omega
    · exact Nat.le_refl _
  · split
    · simp only [weighAll]; omega
    · exact Nat.le_refl _
  · exact Nat.le_refl _

theorem skipQualifiers_le (ts : List RTree) : weighAll (skipQualifiers ts) ≤ weighAll ts := by
  induction ts using skipQualifiers.induct with
  | case1 x r hx ih => rw [skipQualifiers, if_pos hx]; simp only [weighAll]; omega
  | case2 x r hx => rw [skipQualifiers, if_neg hx]
  | case3 r h1 => rw [skipQualifiers.eq_2 _ (by assumption)]

theorem stmtsAt_le : ∀ (n : Nat) (ts : List RTree) (l : List Stmt), stmtsAt n ts = some l → stmtPieces l ≤ weighAll ts := by
  intro n
  induction n with
  | zero =>
    intro ts l h
    cases ts with
    | nil => cases h; exact Nat.zero_le _
    | cons => cases h
  | succ n ih =>
    intro ts l h
    cases ts with
    | nil => cases h; exact Nat.zero_le _
    | cons t ts =>
      unfold stmtsAt at h
      split at h
      · split at h
        · cases h
        · next hr =>
          rw [Option.map_eq_some_iff] at h
          obtain ⟨l', hl, rfl⟩ := h
          have := ih _ _ hl
          have := afterSemi_le _ _ hr
          simp only [stmtPieces, weighAll]; omega
      · split at h
        · next he => cases h; have := exprAt_le he; simp only [stmtPieces, weighAll] at *; omega
        · next he =>
          rw [Option.map_eq_some_iff] at h
          obtain ⟨l', hl, rfl⟩ := h
          have := ih _ _ hl
          have := exprAt_le he
          simp only [stmtPieces, weighAll] at *; omega
        · cases h

theorem outputAt_le {ts r : List RTree} {o : Option Ty} (h : outputAt ts = some (o, r)) : weighAll r ≤ weighAll ts := by
  unfold outputAt at h
  split at h
  · rw [Option.map_eq_some_iff] at h
    obtain ⟨p, hp, he⟩ := h
    cases he
    have := typeAt_le _ _ _ hp
    simp only [weighAll]; omega
  · cases h; exact Nat.le_refl _

theorem fnRest_le {attrs : List Attr} {name : Str} {ts r : List RTree} {f : ImplFn} (h : fnRest attrs name ts = some (f, r)) :
    stmtPieces f.stmts + weighAll r ≤ weighAll ts := by
  unfold fnRest at h
  split at h
  · split at h
    · cases h
    · next ho =>
      split at h
      · cases h
      · next hb =>
        rw [Option.map_eq_some_iff] at h
        obtain ⟨l, hl, he⟩ := h
        cases he
        have := outputAt_le ho
        have := nextBrace_le _ _ _ hb
        have := stmtsAt_le _ _ _ hl
        simp only [weighAll]; omega
  · cases h

theorem fnAt_le {attrs : List Attr} {ts r : List RTree} {f : ImplFn} (h : fnAt attrs ts = some (f, r)) : stmtPieces f.stmts + weighAll r ≤ weighAll ts := by
  unfold fnAt at h
  split at h
  · split at h
    · cases h
    · split at h
      · cases h
      · next hg =>
        have := skipGenerics_le hg
        have := fnRest_le h
        simp only [weighAll]; omega
  · cases h

theorem implItem_le {attrs : List Attr} {ts r : List RTree} {i : ImplItem} (h : implItem attrs ts = some (i, r)) :
    fnPieces (functions [i]) + weighAll r ≤ weighAll ts := by
  unfold implItem at h
  have hq := skipQualifiers_le ts
  split at h
  · next he =>
    rw [he] at hq
    split at h
    · rw [Option.map_eq_some_iff] at h
      obtain ⟨⟨f, r'⟩, hf, he⟩ := h
      cases he
      have := fnAt_le hf
      simp only [weighAll, functions, fnPieces, List.map_cons, List.map_nil, List.sum_cons, List.sum_nil] at *; omega
    · split at h
      · rw [Option.map_eq_some_iff] at h
        obtain ⟨r', hr, he⟩ := h
        cases he
        have := afterSemi_le _ _ hr
        simp only [functions, fnPieces, List.map_nil, List.sum_nil]; omega
      · cases h
  · cases h

theorem functions_cons (i : ImplItem) (l : List ImplItem) : fnPieces (functions (i :: l)) = fnPieces (functions [i]) + fnPieces (functions l) := by
  cases i <;> simp [functions, fnPieces]

theorem implItems_le : ∀ (n : Nat) (ts : List RTree) (l : List ImplItem), implItems n ts = some l → fnPieces (functions l) ≤ weighAll ts := by
  intro n
  induction n with
  | zero =>
    intro ts l h
    cases ts with
    | nil => cases h; exact Nat.zero_le _
    | cons => cases h
  | succ n ih =>
    intro ts l h
    cases ts with
    | nil => cases h; exact Nat.zero_le _
    | cons t ts =>
      unfold implItems at h
      split at h
      · cases h
      · next as r ha =>
        split at h
        · cases h
        · next hi =>
          rw [Option.map_eq_some_iff] at h
          obtain ⟨l', hl, rfl⟩ := h
          have := attrsAt_le ha
          have := implItem_le hi
          have := ih _ _ hl
          have := skipVis_le r
          rw [functions_cons]
          omega

theorem implTy_le {ts r : List RTree} {ty : Ty} (h : implTy ts = some (ty, r)) : weighAll r ≤ weighAll ts := by
  unfold implTy at h
  split at h
  · cases h
  · next ty' r' ht =>
    have := typeAt_le _ _ _ ht
    split at h
    · have := typeAt_le _ _ _ h
      have : weighAll r'.tail ≤ weighAll r' := by cases r' <;> simp [weighAll]
      simp only at *; omega
    · cases h; exact this

theorem implAt_le {ts r : List RTree} {i : Item} (h : implAt ts = some (i, r)) : itemPieces [i] + weighAll r ≤ weighAll ts := by
  unfold implAt at h
  split at h
  · cases h
  · next hg =>
    split at h
    · cases h
    · next ht =>
      split at h
      · cases h
      · next body _ hb =>
        rw [Option.map_eq_some_iff] at h
        obtain ⟨l, hl, he⟩ := h
        cases he
        have := skipGenerics_le hg
        have := implTy_le ht
        have := nextBrace_le _ _ _ hb
        have := implItems_le _ _ _ hl
        have := skipInner_le body
        simp only [itemPieces]; omega

theorem macroAt_le {last : Str} {ts r : List RTree} {i : Item} (h : macroAt last ts = some (i, r)) : itemPieces [i] + weighAll r ≤ weighAll ts := by
  unfold macroAt at h
  split at h <;> cases h <;> simp only [itemPieces, weighAll] <;> omega

theorem plainItem_le {x : Str} {ts r : List RTree} {i : Item} (h : plainItem x ts = some (i, r)) : itemPieces [i] + weighAll r ≤ weighAll ts := by
  unfold plainItem at h
  split at h
  · rw [Option.map_eq_some_iff] at h
    obtain ⟨r', hr, he⟩ := h
    cases he
    split at hr
    · have := afterBody_le _ _ hr; simp only [itemPieces]; omega
    · have := afterSemi_le _ _ hr; simp only [itemPieces]; omega
  split at h
  · rw [Option.map_eq_some_iff] at h
    obtain ⟨r', hr, he⟩ := h
    cases he
    have := afterSemi_le _ _ hr; simp only [itemPieces]; omega
  split at h
  · rw [Option.map_eq_some_iff] at h
    obtain ⟨r', hr, he⟩ := h
    cases he
    have := afterBody_le _ _ hr; simp only [itemPieces]; omega
  split at h
  · next hp =>
    have := pathAt_le (g := some) (by intro ts r h; cases h; exact Nat.le_refl _) _ _ _ hp
    have := macroAt_le h
    simp only [weighAll, weigh] at *; omega
  · cases h

theorem itemAt_le {n : Nat} {ts r : List RTree} {i : Item} (h : itemAt n ts = some (i, r)) : itemPieces [i] + weighAll r ≤ weighAll ts := by
  unfold itemAt at h
  split at h
  · cases h
  · split at h
    · have := implAt_le h; simp only [weighAll]; omega
    split at h
    · have := implAt_le h
      rename_i r' _ _
      have : weighAll r'.tail ≤ weighAll r' := by cases r' <;> simp [weighAll]
      simp only [weighAll]; omega
    split at h
    · split at h
      · cases h; simp only [itemPieces, weighAll]; omega
      · rw [Option.map_eq_some_iff] at h
        obtain ⟨l, hl, he⟩ := h
        cases he
        simp only [itemPieces, weighAll]; omega
      · cases h
    · have := plainItem_le h; simp only [weighAll]; omega
  · cases h

theorem itemPieces_cons (i : Item) (l : List Item) : itemPieces (i :: l) = itemPieces [i] + itemPieces l := by
  cases i <;> simp [itemPieces]

theorem itemsAt_le : ∀ (n : Nat) (ts : List RTree) (l : List Item), itemsAt n ts = some l → itemPieces l ≤ weighAll ts := by
  intro n
  induction n with
  | zero =>
    intro ts l h
    cases ts with
    | nil => rw [itemsAt] at h; cases h; exact Nat.zero_le _
    | cons => rw [itemsAt] at h; cases h
  | succ n ih =>
    intro ts l h
    cases ts with
    | nil => rw [itemsAt] at h; cases h; exact Nat.zero_le _
    | cons t ts =>
      unfold itemsAt at h
      split at h
      · cases h
      · next as r ha =>
        split at h
        · cases h
        · next hi =>
          rw [Option.map_eq_some_iff] at h
          obtain ⟨l', hl, rfl⟩ := h
          have := attrsAt_le ha
          have := itemAt_le hi
          have := ih _ _ hl
          have := skipVis_le r
          rw [itemPieces_cons]
          omega

/-- All function bodies of a text together have at most as many parts as the text has characters. -/
theorem rustSyn_le {s : Str} {items : List Item} (h : rustSyn s = .ok items) : itemPieces items ≤ s.length := by
  unfold rustSyn readItems at h
  split at h
  · next l he =>
    cases h
    split at he
    · cases he
    · next toks hlex =>
      split at he
      · cases he
      · next ts htr =>
        have := lex_le hlex
        have := trees_weight htr
        have := itemsAt_le _ _ _ he
        have := skipInner_le ts
        omega
  · cases h

end Swc.TextSize
