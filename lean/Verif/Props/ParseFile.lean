/-
C45–C49: which functions and which component ranges are taken from a pallet weight file, and parsing of several files.
-/
import Verif.Spec.PalletFile
import Verif.Props.Parse
import Verif.Props.Format
import Verif.Lemmas.Sorted

namespace Swc

open Spec Term

/-! ### Functions -/

/-- C46: which `impl` blocks are looked at. -/
theorem C46_eligible (ty : Ty) : checkSelfTy ty = .ok () ↔ Eligible ty := by
  unfold Eligible
  cases ty with
  | tuple n =>
    rw [checkSelfTy]
    by_cases h : n = 0
    · subst h; simp
    · simp [h]
  | path c segs =>
    rw [checkSelfTy]
    cases c with
    | true => simp
    | false =>
      match segs with
      | [] => simp
      | [a] =>
        by_cases h1 : a = str% "WeightInfo"
        · subst h1; simp
        · by_cases h2 : a = str% "SubstrateWeight"
          · subst h2; simp
          · simp [h1, h2]
      | a :: c :: l => simp
  | other => simp [checkSelfTy]

theorem checkSelfTy_clean (ty : Ty) : Clean (checkSelfTy ty) := by
  unfold checkSelfTy
  repeat' split
  all_goals first | exact clean_ok _ | exact .inr ⟨_, rfl⟩

theorem checkOutput_iff (f : ImplFn) : checkOutput f.name f.output = .ok () ↔ ReturnsWeight f := by
  obtain ⟨name, attrs, output, stmts⟩ := f
  unfold ReturnsWeight
  dsimp only
  match output with
  | none =>
    constructor
    · intro h; cases h
    · rintro ⟨c', segs', last, pre, h1, -⟩; cases h1
  | some (.tuple n) =>
    constructor
    · intro h; cases h
    · rintro ⟨c', segs', last, pre, h1, -⟩; cases h1
  | some .other =>
    constructor
    · intro h; cases h
    · rintro ⟨c', segs', last, pre, h1, -⟩; cases h1
  | some (.path c segs) =>
    rw [checkOutput]
    by_cases hl : endsWith (segs.getLast?.getD []) (str% "Weight") = true
    · rw [if_pos hl]
      constructor
      · intro _
        cases hs : segs.getLast? with
        | none => rw [hs] at hl; exact absurd hl (by decide)
        | some last =>
          rw [hs] at hl
          obtain ⟨pre, hp⟩ := endsWith_iff.1 hl
          exact ⟨c, segs, last, pre, rfl, hs, hp.symm⟩
      · intro _; rfl
    · rw [if_neg hl]
      constructor
      · intro h; cases h
      · rintro ⟨c', segs', last, pre, h1, h2, h3⟩
        cases h1
        refine absurd ?_ hl
        rw [h2, endsWith_iff]
        exact ⟨pre, h3.symm⟩

theorem onlyExpr_iff (l : List Stmt) (e : Expr) : onlyExpr l = .ok e ↔ l = [.expr e] := by
  unfold onlyExpr
  split
  · constructor
    · intro h; cases h; rfl
    · intro h; cases h; rfl
  · constructor
    · intro h; cases h
    · intro h; cases h
  · rename_i h1 h2
    constructor
    · intro h; cases h
    · intro h; exact absurd h (h1 _)

/-- C46: what a function must look like to be extracted, and what is extracted. -/
theorem C46_method (cc : CharClass) (pallet : Str) (f : ImplFn) (name : Str) (t : ChromaticTerm) (r : Option ComponentRanges) :
    handleMethod cc f = .ok (name, t, r) ↔ Extracted cc pallet f ⟨name, pallet, t, r⟩ := by
  unfold handleMethod Extracted
  constructor
  · intro h
    obtain ⟨_, h1, h⟩ := bind_eq_ok h
    obtain ⟨e, h2, h⟩ := bind_eq_ok h
    obtain ⟨w, h3, h⟩ := bind_eq_ok h
    obtain ⟨r', h4, h⟩ := bind_eq_ok h
    cases h
    exact ⟨(checkOutput_iff f).1 h1, rfl, rfl, ⟨e, (onlyExpr_iff _ _).1 h2, h3⟩, h4⟩
  · rintro ⟨h1, h2, -, ⟨e, h3, h4⟩, h5⟩
    dsimp only at h2 h4 h5
    rw [(checkOutput_iff f).2 h1, Res.bind_ok, (onlyExpr_iff _ _).2 h3, Res.bind_ok, h4, Res.bind_ok, h5, h2]
    rfl

theorem handleMethods_iff (cc : CharClass) (pallet : Str) (items : List ImplItem) (exts : List ChromaticExtrinsic) :
    handleMethods cc pallet items = .ok exts ↔ List.Forall₂ (Extracted cc pallet) (functions items) exts := by
  induction items generalizing exts with
  | nil =>
    rw [handleMethods, functions, List.forall₂_nil_left_iff]
    exact ⟨fun h => by cases h; rfl, fun h => by rw [h]⟩
  | cons i l ih =>
    cases i with
    | other => rw [handleMethods, functions]; exact ih exts
    | fn f =>
      rw [handleMethods, functions, List.forall₂_cons_left_iff]
      constructor
      · intro h
        obtain ⟨⟨name, t, r⟩, h1, h⟩ := bind_eq_ok h
        obtain ⟨rest, h2, h⟩ := bind_eq_ok h
        cases h
        exact ⟨_, rest, (C46_method cc pallet f name t r).1 h1, (ih rest).1 h2, rfl⟩
      · rintro ⟨x, rest, h1, h2, rfl⟩
        obtain ⟨name, p, t, r⟩ := x
        have hp : p = pallet := h1.2.2.1
        subst hp
        rw [(C46_method cc p f name t r).2 h1, Res.bind_ok]
        dsimp only
        rw [(ih rest).2 h2]
        rfl

theorem handleItem_iff (cc : CharClass) (pallet : Str) (item : Item) (exts : List ChromaticExtrinsic) :
    handleItem cc pallet item = .ok exts ↔ Implements cc pallet item exts := by
  unfold Implements
  cases item with
  | impl ty items =>
    rw [handleItem]
    constructor
    · intro h
      obtain ⟨_, h1, h⟩ := bind_eq_ok h
      obtain ⟨w, h2, h⟩ := bind_eq_ok h
      have h3 := (handleMethods_iff cc pallet items w).1 h2
      by_cases hw : w.isEmpty = true
      · rw [if_pos hw] at h; cases h
      · rw [if_neg hw] at h
        cases h
        refine ⟨ty, items, rfl, (C46_eligible ty).1 h1, ?_, h3⟩
        intro hf
        rw [hf, List.forall₂_nil_left_iff] at h3
        exact hw (by rw [h3]; rfl)
    · rintro ⟨ty', items', h, h1, h2, h3⟩
      cases h
      rw [(C46_eligible ty).2 h1, Res.bind_ok, (handleMethods_iff cc pallet items exts).2 h3, Res.bind_ok, if_neg]
      intro he
      rw [List.isEmpty_iff] at he
      rw [he, List.forall₂_nil_right_iff] at h3
      exact h2 h3
  | _ => simp [handleItem]

theorem firstOk_iff {α : Type} (f : Item → Res α) (msg : Str) (items : List Item) (r : α) :
    firstOk f msg items = .ok r ↔ ∃ pre i post, items = pre ++ i :: post ∧ f i = .ok r ∧ ∀ j ∈ pre, ∃ m, f j = .err m := by
  induction items with
  | nil => simp [firstOk]
  | cons a l ih =>
    rw [firstOk]
    cases h : f a with
    | err m =>
      simp only
      rw [ih]
      constructor
      · rintro ⟨pre, i, post, rfl, h1, h2⟩
        refine ⟨a :: pre, i, post, rfl, h1, ?_⟩
        intro j hj
        rcases List.mem_cons.1 hj with rfl | hj
        · exact ⟨m, h⟩
        · exact h2 j hj
      · rintro ⟨pre, i, post, h0, h1, h2⟩
        cases pre with
        | nil => cases h0; rw [h] at h1; cases h1
        | cons c pre =>
          cases h0
          exact ⟨pre, i, post, rfl, h1, fun j hj => h2 j (List.mem_cons_of_mem _ hj)⟩
    | _ =>
      simp only
      constructor
      · intro h'
        first
        | cases h'; exact ⟨[], a, l, rfl, h, by simp⟩
        | cases h'
      · rintro ⟨pre, i, post, h0, h1, h2⟩
        cases pre with
        | nil => cases h0; rw [h] at h1; exact h1
        | cons c pre =>
          cases h0
          obtain ⟨m, hm⟩ := h2 a (by simp)
          rw [h] at hm
          cases hm

/-- C45: if a file parses, the result is exactly the list of functions of the first `impl` block that is eligible and can be extracted
completely: one entry per function, in order, under the given file name. -/
theorem C45_content {syn : SynParser} {cc : CharClass} {pallet content : Str} {exts : List ChromaticExtrinsic}
    (h : parseContent syn cc pallet content = .ok exts) :
    ∃ items pre i post, syn content = .ok items ∧ items = pre ++ i :: post ∧ Implements cc pallet i exts
      ∧ ∀ j ∈ pre, ∀ x, ¬ Implements cc pallet j x := by
  unfold parseContent at h
  split at h
  · cases h
  · rename_i items hs
    obtain ⟨pre, i, post, h0, h1, h2⟩ := (firstOk_iff _ _ _ _).1 h
    refine ⟨items, pre, i, post, hs, h0, (handleItem_iff _ _ _ _).1 h1, fun j hj x hx => ?_⟩
    obtain ⟨m, hm⟩ := h2 j hj
    rw [(handleItem_iff _ _ _ _).2 hx] at hm
    cases hm

/-- C45: names, order and file name of the result. -/
theorem C45_names {cc : CharClass} {pallet : Str} {ty : Ty} {items : List ImplItem} {exts : List ChromaticExtrinsic}
    (h : Implements cc pallet (.impl ty items) exts) :
    exts.map (·.name) = (functions items).map (·.name) ∧ ∀ e ∈ exts, e.pallet = pallet := by
  obtain ⟨ty', items', h0, -, -, h⟩ := h
  cases h0
  generalize functions items = l at h
  induction h with
  | nil => simp
  | cons h _ ih =>
    refine ⟨by rw [List.map_cons, List.map_cons, h.2.1, ih.1], ?_⟩
    intro e he
    rcases List.mem_cons.1 he with rfl | he
    · exact h.2.2.1
    · exact ih.2 e he

/-- C45: conversely, a file with an `impl` block that can be extracted is parsed (to the first such block), unless some item makes the
parser panic. -/
theorem C45_found {syn : SynParser} {cc : CharClass} {pallet content : Str} {items : List Item} (hs : syn content = .ok items)
    (hp : ∀ j ∈ items, Clean (handleItem cc pallet j)) {i : Item} (hi : i ∈ items) {x : List ChromaticExtrinsic}
    (hx : Implements cc pallet i x) : ∃ exts, parseContent syn cc pallet content = .ok exts := by
  unfold parseContent
  rw [hs]
  simp only
  clear hs
  induction items with
  | nil => cases hi
  | cons a l ih =>
    rw [firstOk]
    rcases hp a (by simp) with ⟨r, hr⟩ | ⟨m, hm⟩
    · rw [hr]; exact ⟨r, rfl⟩
    · rw [hm]
      simp only
      refine ih (fun j hj => hp j (List.mem_cons_of_mem _ hj)) ?_
      rcases List.mem_cons.1 hi with rfl | hi
      · rw [(handleItem_iff _ _ _ _).2 hx] at hm; cases hm
      · exact hi

/-- C45: a file without such a block is refused. -/
theorem C45_not_found {syn : SynParser} {cc : CharClass} {pallet content : Str} {items : List Item} (hs : syn content = .ok items)
    (h : ∀ i ∈ items, ∀ x, ¬ Implements cc pallet i x) (exts : List ChromaticExtrinsic) :
    parseContent syn cc pallet content ≠ .ok exts := by
  intro hc
  obtain ⟨items', pre, i, post, h1, h2, h3, -⟩ := C45_content hc
  rw [hs] at h1
  cases h1
  exact h i (by rw [h2]; simp) exts h3

/-! ### Annotations -/

theorem takeWhile_stop {p : Char → Bool} {a r : Str} {x : Char} (ha : ∀ c ∈ a, p c = true) (hx : p x = false) :
    (a ++ x :: r).takeWhile p = a := by
  rw [List.takeWhile_append_of_pos ha, List.takeWhile_cons, hx]; simp

theorem dropWhile_stop {p : Char → Bool} {a r : Str} {x : Char} (ha : ∀ c ∈ a, p c = true) (hx : p x = false) :
    (a ++ x :: r).dropWhile p = x :: r := by
  rw [List.dropWhile_append_of_pos ha, List.dropWhile_cons, hx]; simp

theorem stripLit_append (p s : Str) : stripLit p (p ++ s) = some s := by
  induction p with
  | nil => cases s <;> rfl
  | cons c p ih => rw [List.cons_append, stripLit, if_pos rfl, ih]

theorem stripLit_some {p s r : Str} (h : stripLit p s = some r) : s = p ++ r := by
  induction p generalizing s with
  | nil => cases s <;> (rw [stripLit] at h; cases h; rfl)
  | cons c p ih =>
    cases s with
    | nil => cases h
    | cons d s =>
      rw [stripLit] at h
      split at h
      · rename_i hc; subst hc; rw [ih h]; rfl
      · cases h

theorem word_tick (cc : CharClass) : cc.word '`' = false := by rw [cc.word_ascii _ (by decide)]; decide
theorem text_tick (cc : CharClass) : cc.text '`' = false := by
  rw [CharClass.text, word_tick, cc.space_ascii _ (by decide)]; decide
theorem num_comma (cc : CharClass) : cc.num ',' = false := by rw [CharClass.num, cc.digit_ascii _ (by decide)]; decide
theorem num_bracket (cc : CharClass) : cc.num ']' = false := by rw [CharClass.num, cc.digit_ascii _ (by decide)]; decide
theorem num_not_space (cc : CharClass) {c : Char} (h : cc.digit c = true ∨ c = '_') : cc.space c = false := by
  rcases h with h | rfl
  · exact cc.digit_not_space c h
  · rw [cc.space_ascii _ (by decide)]; decide

theorem dropWhile_space (cc : CharClass) {sp hi r : Str} (h1 : ∀ c ∈ sp, cc.space c = true)
    (h2 : hi ≠ [] ∧ ∀ c ∈ hi, cc.digit c = true ∨ c = '_') : (sp ++ (hi ++ r)).dropWhile cc.space = hi ++ r := by
  obtain ⟨h2, h3⟩ := h2
  cases hi with
  | nil => exact absurd rfl h2
  | cons c hi => rw [List.cons_append]; exact dropWhile_stop h1 (num_not_space cc (h3 c (by simp)))

theorem num_all (cc : CharClass) {l : Str} (h : ∀ c ∈ l, cc.digit c = true ∨ c = '_') : ∀ c ∈ l, cc.num c = true := by
  intro c hc
  rw [CharClass.num, Bool.or_eq_true, beq_iff_eq]
  exact h c hc

/-- The matcher on a well-formed annotation. -/
theorem matchAt_ok (cc : CharClass) {s name lo hi : Str} (h : AnnotationAt cc [] s name lo hi) : matchAt cc s = some (name, lo, hi) := by
  obtain ⟨mid, sp, post, rfl, ⟨h1, h2⟩, h3, ⟨h4, h5⟩, h6, h7⟩ := h
  have h3' : ∀ c ∈ mid, cc.text c = true := fun c hc => by rw [CharClass.text, Bool.or_eq_true]; exact h3 c hc
  have h5' := num_all cc h5
  have h7' := num_all cc h7.2
  simp only [List.nil_append, List.append_assoc]
  unfold matchAt
  rw [stripLit_append]
  simp only [Option.bind_eq_bind, Option.bind_some]
  simp only [List.cons_append, List.nil_append]
  have e : ∀ (a : Char) (l : Str), stripLit [a] (a :: l) = some l := fun a l => stripLit_append [a] l
  have e2 : ∀ (a c : Char) (l : Str), stripLit [a, c] (a :: c :: l) = some l := fun a c l => stripLit_append [a, c] l
  simp only [takeWhile_stop h2 (word_tick cc), dropWhile_stop h2 (word_tick cc), guard, h1, ne_eq, not_false_eq_true, if_true,
    Option.pure_def, Option.bind_some, e, e2, dropWhile_stop h3' (text_tick cc), takeWhile_stop h5' (num_comma cc),
    dropWhile_stop h5' (num_comma cc), h4, dropWhile_space cc h6 h7, takeWhile_stop h7' (num_bracket cc),
    dropWhile_stop h7' (num_bracket cc), h7.1]

theorem matchAt_some (cc : CharClass) {s name lo hi : Str} (h : matchAt cc s = some (name, lo, hi)) : AnnotationAt cc [] s name lo hi := by
  unfold matchAt at h
  obtain ⟨s1, h1, h⟩ := obind_some h
  dsimp only at h
  obtain ⟨_, g1, h⟩ := obind_some h
  obtain ⟨s2, h2, h⟩ := obind_some h
  obtain ⟨s3, h3, h⟩ := obind_some h
  obtain ⟨_, g2, h⟩ := obind_some h
  obtain ⟨s4, h4, h⟩ := obind_some h
  obtain ⟨_, g3, h⟩ := obind_some h
  obtain ⟨s5, h5, h⟩ := obind_some h
  cases h
  have gg : ∀ {p : Prop} [Decidable p] {u : Unit}, (guard p : Option Unit) = some u → p := by
    intro p _ u hg
    by_contra hp
    simp [guard, hp] at hg
  have t : ∀ {p : Char → Bool} {l : Str} {c : Char}, c ∈ l.takeWhile p → p c = true := fun hc => List.all_eq_true.1 List.all_takeWhile _ hc
  refine ⟨s2.takeWhile cc.text, s4.takeWhile cc.space, s5, ?_, ⟨gg g1, fun c hc => t hc⟩, ?_, ⟨gg g2, ?_⟩, fun c hc => t hc, gg g3, ?_⟩
  · have e1 := stripLit_some h1
    have e2 := stripLit_some h2
    have e3 := stripLit_some h3
    have e4 := stripLit_some h4
    have e5 := stripLit_some h5
    rw [e1]
    conv_lhs => rw [← List.takeWhile_append_dropWhile (p := cc.word) (l := s1), e2,
      ← List.takeWhile_append_dropWhile (p := cc.text) (l := s2), e3,
      ← List.takeWhile_append_dropWhile (p := cc.num) (l := s3), e4,
      ← List.takeWhile_append_dropWhile (p := cc.space) (l := s4),
      ← List.takeWhile_append_dropWhile (p := cc.num) (l := s4.dropWhile cc.space), e5]
    simp only [List.append_assoc, List.nil_append]
  · intro c hc
    have := t hc
    rwa [CharClass.text, Bool.or_eq_true] at this
  · intro c hc
    have := t hc
    rwa [CharClass.num, Bool.or_eq_true, beq_iff_eq] at this
  · intro c hc
    have := t hc
    rwa [CharClass.num, Bool.or_eq_true, beq_iff_eq] at this

theorem annotationAt_cons (cc : CharClass) {c : Char} {pre s name lo hi : Str} :
    AnnotationAt cc (c :: pre) (c :: s) name lo hi ↔ AnnotationAt cc pre s name lo hi := by
  unfold AnnotationAt
  simp only [List.cons_append, List.cons.injEq, true_and]

theorem matchAt_needs_tick (cc : CharClass) {c : Char} (h : c ≠ '`') (s : Str) : matchAt cc (c :: s) = none := by
  unfold matchAt
  rw [stripLit, if_neg (Ne.symm h)]
  rfl

/-- C47: an annotation is found, with the text between the first pair of backticks as name. -/
theorem C47_found (cc : CharClass) {pre s name lo hi : Str} (hp : '`' ∉ pre) (h : AnnotationAt cc pre s name lo hi) :
    captures cc s = some (name, lo, hi) := by
  induction pre generalizing s with
  | nil =>
    cases s with
    | nil => obtain ⟨_, _, _, h0, _⟩ := h; simp at h0
    | cons c s => rw [captures, matchAt_ok cc h]
  | cons c pre ih =>
    cases s with
    | nil => obtain ⟨_, _, _, h0, _⟩ := h; simp at h0
    | cons d s =>
      have : d = c := by obtain ⟨_, _, _, h0, _⟩ := h; simp at h0; exact h0.1
      subst this
      rw [captures, matchAt_needs_tick cc (fun he => hp (by simp [he]))]
      exact ih (fun hc => hp (List.mem_cons_of_mem _ hc)) ((annotationAt_cons cc).1 h)

/-- C47: nothing else is taken for an annotation; of several the first one in the text counts. -/
theorem C47_only (cc : CharClass) {s name lo hi : Str} (h : captures cc s = some (name, lo, hi)) :
    ∃ pre, AnnotationAt cc pre s name lo hi ∧ ∀ pre' n l u, AnnotationAt cc pre' s n l u → pre.length ≤ pre'.length := by
  induction s with
  | nil => cases h
  | cons c s ih =>
    rw [captures] at h
    split at h
    · rename_i m hm
      cases h
      exact ⟨[], matchAt_some cc hm, fun _ _ _ _ _ => Nat.zero_le _⟩
    · rename_i hm
      obtain ⟨pre, h1, h2⟩ := ih h
      refine ⟨c :: pre, (annotationAt_cons cc).2 h1, ?_⟩
      intro pre' n l u h'
      cases pre' with
      | nil => rw [matchAt_ok cc h'] at hm; cases hm
      | cons d pre' =>
        have : c = d := by obtain ⟨_, _, _, h0, _⟩ := h'; simp at h0; exact h0.1
        subst this
        exact Nat.succ_le_succ (h2 pre' n l u ((annotationAt_cons cc).1 h'))

theorem C47_none (cc : CharClass) (s : Str) : captures cc s = none ↔ ∀ pre name lo hi, ¬ AnnotationAt cc pre s name lo hi := by
  induction s with
  | nil =>
    refine ⟨fun _ pre name lo hi h => ?_, fun _ => rfl⟩
    obtain ⟨_, _, _, h0, _⟩ := h
    simp at h0
  | cons c s ih =>
    rw [captures]
    cases hm : matchAt cc (c :: s) with
    | some m =>
      obtain ⟨a, l, u⟩ := m
      simp only [reduceCtorEq, false_iff]
      exact fun hc => hc [] a l u (matchAt_some cc hm)
    | none =>
      simp only
      rw [ih]
      constructor
      · intro h pre name lo hi h'
        cases pre with
        | nil => rw [matchAt_ok cc h'] at hm; cases hm
        | cons d pre =>
          have : c = d := by obtain ⟨_, _, _, h0, _⟩ := h'; simp at h0; exact h0.1
          subst this
          exact h pre name lo hi ((annotationAt_cons cc).1 h')
      · intro h pre name lo hi h'
        exact h (c :: pre) name lo hi ((annotationAt_cons cc).2 h')

theorem stripUnderscore_eq (s : Str) : stripUnderscore s = s.filter (· ≠ '_') := rfl

theorem parseBound_ok {what s : Str} {n : Nat} (h : underscored s = some n) (hn : n < 2 ^ 32) : parseBound what s = .ok n := by
  unfold parseBound
  rw [stripUnderscore_eq, parseUInt_of_readNat h, if_pos (by exact hn)]

theorem parseBound_big {what s : Str} {n : Nat} (h : underscored s = some n) (hn : 2 ^ 32 ≤ n) : ∃ m, parseBound what s = .err m := by
  unfold parseBound
  rw [stripUnderscore_eq, parseUInt_of_readNat h, if_neg (by simp only [u32Size]; omega)]
  exact ⟨_, rfl⟩

theorem parseUInt_none {bound : Nat} {s : Str} (h : readNat s = none) (hp : '+' ∉ s) : parseUInt bound s = none := by
  unfold parseUInt
  cases s with
  | nil => rfl
  | cons c s =>
    have hc : c ≠ '+' := fun e => hp (by simp [e])
    rw [readNat] at h
    split
    · rename_i heq; cases heq; exact absurd rfl hc
    · simp only [parseDigits_eq, h]

theorem parseBound_none {what s : Str} (h : underscored s = none) (hp : '+' ∉ s) : ∃ m, parseBound what s = .err m := by
  unfold parseBound
  rw [stripUnderscore_eq, parseUInt_none h (fun hc => hp (List.mem_filter.1 hc).1)]
  exact ⟨_, rfl⟩

/-- C47: a documentation line with an annotation and bounds that are `u32` numbers in order gives the range. -/
theorem C47_range (cc : CharClass) {pre s name lo hi : Str} {l u : Nat} (hp : '`' ∉ pre) (h : AnnotationAt cc pre s name lo hi)
    (hl : underscored lo = some l) (hu : underscored hi = some u) (h1 : l ≤ u) (h2 : u < 2 ^ 32) :
    parseComponentAttr cc (.nameValue [str% "doc"] s) = .ok (some (name, ⟨l, u⟩)) := by
  rw [parseComponentAttr, if_neg (by decide), C47_found cc hp h]
  simp only
  rw [parseBound_ok hl (by omega), Res.bind_ok, parseBound_ok hu h2, Res.bind_ok, if_neg (by omega)]

theorem num_no_plus {cc : CharClass} {l : Str} (h : ∀ c ∈ l, cc.digit c = true ∨ c = '_') : '+' ∉ l := by
  intro hc
  rcases h _ hc with h | h
  · rw [cc.digit_ascii _ (by decide)] at h; exact absurd h (by decide)
  · exact absurd h (by decide)

/-- C47: an annotation whose bounds are not `u32` numbers, or not in order, is an error. -/
theorem C47_bad_range (cc : CharClass) {pre s name lo hi : Str} (hp : '`' ∉ pre) (h : AnnotationAt cc pre s name lo hi)
    (hbad : ∀ l u, underscored lo = some l → underscored hi = some u → l ≤ u → ¬ u < 2 ^ 32) :
    ∃ m, parseComponentAttr cc (.nameValue [str% "doc"] s) = .err m := by
  rw [parseComponentAttr, if_neg (by decide), C47_found cc hp h]
  simp only
  obtain ⟨mid, sp, post, -, -, -, ⟨-, hlo⟩, -, -, hhi⟩ := h
  cases hl : underscored lo with
  | none =>
    obtain ⟨m, hm⟩ := parseBound_none (what := str% "min") hl (num_no_plus hlo)
    rw [hm]; exact ⟨m, rfl⟩
  | some l =>
    by_cases h1 : l < 2 ^ 32
    · rw [parseBound_ok hl h1, Res.bind_ok]
      cases hu : underscored hi with
      | none =>
        obtain ⟨m, hm⟩ := parseBound_none (what := str% "max") hu (num_no_plus hhi)
        rw [hm]; exact ⟨m, rfl⟩
      | some u =>
        by_cases h2 : u < 2 ^ 32
        · rw [parseBound_ok hu h2, Res.bind_ok]
          have : ¬ l ≤ u := fun hle => hbad l u hl hu hle h2
          rw [if_pos (by omega)]
          exact ⟨_, rfl⟩
        · obtain ⟨m, hm⟩ := parseBound_big (what := str% "max") hu (by omega)
          rw [hm]; exact ⟨m, rfl⟩
    · obtain ⟨m, hm⟩ := parseBound_big (what := str% "min") hl (by omega)
      rw [hm]; exact ⟨m, rfl⟩

theorem joinStr_nil (l : List Str) : joinStr [] l = l.flatten := by
  induction l with
  | nil => rfl
  | cons a l ih =>
    cases l with
    | nil => simp [joinStr]
    | cons c l => rw [List.flatten_cons, ← ih, joinStr]; simp

/-- C47: attributes that are not documentation, and documentation without annotation, are ignored.  (Documentation is recognised by
the attribute's path segments, written without separator, giving `doc`.) -/
theorem C47_ignored (cc : CharClass) (a : Attr)
    (h : ∀ path s, a = .nameValue path s → path.flatten = str% "doc" → ∀ pre name lo hi, ¬ AnnotationAt cc pre s name lo hi) :
    parseComponentAttr cc a = .ok none := by
  cases a with
  | other => rfl
  | nameValue path s =>
    rw [parseComponentAttr]
    by_cases hpath : pathToString path none = str% "doc"
    · rw [if_neg (fun hn => hn hpath)]
      rw [pathToString, Option.getD_none, joinStr_nil] at hpath
      rw [(C47_none cc s).2 (h path s rfl hpath)]
    · rw [if_pos hpath]

/-- The documentation line Substrate generates. -/
def rangeLine (name : Str) (lo hi : Nat) : Str :=
  str% "\" The range of component `" ++ name ++ str% "` is `[" ++ natToStr lo ++ str% ", " ++ natToStr hi ++ str% "]`.\""

/-- C47: the line ``The range of component `c` is `[lo, hi]`.`` gives the range `lo..=hi` for `c`. -/
theorem C47_generated_line (cc : CharClass) {name : Str} (hn : name ≠ []) (hw : ∀ c ∈ name, cc.word c = true) {lo hi : Nat}
    (h1 : lo ≤ hi) (h2 : hi < 2 ^ 32) :
    parseComponentAttr cc (.nameValue [str% "doc"] (rangeLine name lo hi)) = .ok (some (name, ⟨lo, hi⟩)) := by
  have hd : ∀ n c, c ∈ natToStr n → cc.digit c = true ∨ c = '_' := by
    intro n c hc
    have h := natToStr_isDigit hc
    left
    rw [cc.digit_ascii, h]
    simp only [Char.isDigit, Bool.and_eq_true, decide_eq_true_eq] at h
    have := UInt32.le_iff_toNat_le.1 h.2
    simp at this
    exact Nat.lt_of_le_of_lt this (by decide)
  have hu : ∀ n, underscored (natToStr n) = some n := by
    intro n
    rw [underscored, List.filter_eq_self.2, readNat_natToStr]
    intro c hc
    have h := natToStr_isDigit hc
    simp only [ne_eq, decide_not, Bool.not_eq_eq_eq_not, Bool.not_true, decide_eq_false_iff_not]
    rintro rfl
    exact absurd h (by decide)
  refine C47_range cc (pre := str% "\" The range of component ") (by decide) ⟨str% " is ", str% " ", str% ".\"", ?_, ⟨hn, hw⟩, ?_,
    ⟨natToStr_ne_nil, hd lo⟩, ?_, natToStr_ne_nil, hd hi⟩ (hu lo) (hu hi) h1 h2
  · simp [rangeLine]
  · intro c hc
    simp only [List.mem_cons, List.not_mem_nil, or_false] at hc
    rcases hc with rfl | rfl | rfl | rfl
    · right; rw [cc.space_ascii _ (by decide)]; decide
    · left; rw [cc.word_ascii _ (by decide)]; decide
    · left; rw [cc.word_ascii _ (by decide)]; decide
    · right; rw [cc.space_ascii _ (by decide)]; decide
  · intro c hc
    simp only [List.mem_cons, List.not_mem_nil, or_false] at hc
    rw [hc, cc.space_ascii _ (by decide)]; decide

theorem collectRanges_get (cc : CharClass) {acc m : BMap ComponentRange} {attrs : List Attr}
    (h : collectRanges cc acc attrs = .ok m) (x : Str) : BMap.get m x = (lastAnnotation cc x attrs).or (BMap.get acc x) := by
  induction attrs generalizing acc with
  | nil => cases h; rfl
  | cons a l ih =>
    rw [collectRanges] at h
    obtain ⟨r, h1, h⟩ := bind_eq_ok h
    rw [lastAnnotation]
    cases r with
    | none =>
      dsimp only at h
      rw [ih h]
      cases lastAnnotation cc x l with
      | some _ => rfl
      | none => simp only [h1]
    | some nr =>
      obtain ⟨name, r⟩ := nr
      dsimp only at h
      rw [ih h]
      cases lastAnnotation cc x l with
      | some _ => rfl
      | none =>
        simp only [h1, Option.none_or]
        rw [BMap.get_insert, stripUnderscore_eq]
        by_cases hx : x = name.filter (· ≠ '_')
        · rw [if_pos hx, if_pos hx.symm]; rfl
        · rw [if_neg hx, if_neg (fun e => hx e.symm)]; rfl

/-- C47: of several annotations of the same component the last one counts; a component without annotation has no range. -/
theorem C47_last_wins (cc : CharClass) {attrs : List Attr} {r : Option ComponentRanges} (h : parseComponentAttrs cc attrs = .ok r)
    (x : Str) : rangeGet r x = lastAnnotation cc x attrs := by
  unfold parseComponentAttrs at h
  obtain ⟨m, hm, h⟩ := bind_eq_ok h
  have := collectRanges_get cc hm x
  rw [BMap.get_nil, Option.or_none] at this
  cases h
  rw [← this]
  split
  · rename_i he
    rw [List.isEmpty_iff] at he
    subst he
    rfl
  · rfl

/-- C47: a broken annotation makes the whole function an error. -/
theorem C47_error (cc : CharClass) {attrs : List Attr} {a : Attr} (ha : a ∈ attrs) {m : Str} (h : parseComponentAttr cc a = .err m)
    (r : Option ComponentRanges) : parseComponentAttrs cc attrs ≠ .ok r := by
  intro hc
  unfold parseComponentAttrs at hc
  obtain ⟨w, hw, -⟩ := bind_eq_ok hc
  clear hc
  generalize ([] : BMap ComponentRange) = acc at hw
  induction attrs generalizing acc with
  | nil => cases ha
  | cons c l ih =>
    rw [collectRanges] at hw
    obtain ⟨r', h1, hw⟩ := bind_eq_ok hw
    rcases List.mem_cons.1 ha with rfl | ha
    · rw [h] at h1; cases h1
    · split at hw
      · exact ih ha _ hw
      · exact ih ha _ hw

/-- The characters of the classes are those of ASCII: an instance of `CharClass`. -/
def asciiClass : CharClass where
  word c := c.isAlphanum || c == '_'
  digit c := c.isDigit
  space c := c == ' ' || (9 ≤ c.toNat && c.toNat ≤ 13)
  plain c := 32 ≤ c.toNat && c.toNat ≤ 126
  word_ascii _ _ := rfl
  plain_ascii _ _ := rfl
  digit_ascii _ _ := rfl
  space_ascii _ _ := rfl
  digit_not_space c h := by
    simp only [Char.isDigit, Bool.and_eq_true, decide_eq_true_eq, ge_iff_le] at h
    have h1 : 48 ≤ c.toNat := by
      have := UInt32.le_iff_toNat_le.1 h.1
      simpa using this
    rw [Bool.or_eq_false_iff]
    refine ⟨?_, ?_⟩
    · rw [beq_eq_false_iff_ne]
      rintro rfl
      exact absurd h1 (by decide)
    · simp; omega

example : parseComponentAttr asciiClass (.nameValue [str% "doc"] (rangeLine (str% "n") 1 2000)) = .ok (some (str% "n", ⟨1, 2000⟩)) :=
  C47_generated_line asciiClass (by decide) (by decide) (by decide) (by decide)
example : parseComponentAttr asciiClass (.nameValue [str% "doc"] (str% " Range of `c` is `[1_337, 2_000]`")) =
    .ok (some (str% "c", ⟨1337, 2000⟩)) := by rfl
example : AnnotationAt asciiClass (str% " Range of ") (str% " Range of `c` is `[1_337, 2_000]`") (str% "c") (str% "1_337") (str% "2_000") :=
  ⟨str% " is ", str% " ", [], by decide⟩
example : ∃ m, parseComponentAttr asciiClass (.nameValue [str% "doc"] (rangeLine (str% "n") 5 (2 ^ 32))) = .err m := ⟨_, rfl⟩
example : ∃ m, parseComponentAttr asciiClass (.nameValue [str% "doc"] (rangeLine (str% "n") 7 5)) = .err m := ⟨_, rfl⟩
example : parseComponentAttr asciiClass (.nameValue [str% "doc"] (str% " The `c` component.")) = .ok none := rfl

/-! ### C48 -/

theorem rangeGet_getD (r : Option ComponentRanges) (x : Str) : rangeGet (some (r.getD [])) x = rangeGet r x := by
  cases r <;> rfl

theorem lastAnnotation_underscore (cc : CharClass) {x : Str} (hx : '_' ∈ x) (attrs : List Attr) : lastAnnotation cc x attrs = none := by
  induction attrs with
  | nil => rfl
  | cons a l ih =>
    rw [lastAnnotation, ih]
    simp only
    split
    · rw [if_neg]
      rintro rfl
      exact absurd (List.mem_filter.1 hx).2 (by decide)
    · rfl

/-- C48: the range annotated for a component (name without underscore) in both versions of a call is the one used. -/
theorem C48_annotated (cc : CharClass) {p q : Str} {f g : ImplFn} {a c : ChromaticExtrinsic} (ha : Extracted cc p f a)
    (hc : Extracted cc q g c) {x : Str} {r : ComponentRange} (hf : lastAnnotation cc x f.attrs = some r)
    (hg : lastAnnotation cc x g.attrs = some r) (s : Strategy) (pallet ext : Str) :
    instanceComponent x (some (a.compRanges.getD [])) (some (c.compRanges.getD [])) s pallet ext
      = .ok (match s.minOrMax with | .min => r.min | .max => r.max) := by
  unfold instanceComponent
  rw [rangeGet_getD, rangeGet_getD, C47_last_wins cc ha.2.2.2.2, C47_last_wins cc hc.2.2.2.2, hf, hg]
  simp only [if_true]
  cases s.minOrMax <;> rfl

/-- C48: a call that exists in one version only. -/
theorem C48_annotated_one (cc : CharClass) {p : Str} {f : ImplFn} {a : ChromaticExtrinsic} (ha : Extracted cc p f a)
    {x : Str} {r : ComponentRange} (hf : lastAnnotation cc x f.attrs = some r) (s : Strategy) (pallet ext : Str) :
    instanceComponent x (some (a.compRanges.getD [])) none s pallet ext = .ok (match s.minOrMax with | .min => r.min | .max => r.max)
    ∧ instanceComponent x none (some (a.compRanges.getD [])) s pallet ext = .ok (match s.minOrMax with | .min => r.min | .max => r.max) := by
  unfold instanceComponent
  rw [rangeGet_getD, C47_last_wins cc ha.2.2.2.2, hf]
  cases s.minOrMax <;> exact ⟨rfl, rfl⟩

/-- C48: annotations that differ between the versions: guessing takes the widest range, exact methods refuse. -/
theorem C48_different (cc : CharClass) {p q : Str} {f g : ImplFn} {a c : ChromaticExtrinsic} (ha : Extracted cc p f a)
    (hc : Extracted cc q g c) {x : Str} {r r' : ComponentRange} (hf : lastAnnotation cc x f.attrs = some r)
    (hg : lastAnnotation cc x g.attrs = some r') (hne : r ≠ r') (s : Strategy) (pallet ext : Str) :
    (s.exact = true → ∃ m, instanceComponent x (some (a.compRanges.getD [])) (some (c.compRanges.getD [])) s pallet ext = .err m)
    ∧ (s.exact = false → instanceComponent x (some (a.compRanges.getD [])) (some (c.compRanges.getD [])) s pallet ext
        = .ok (match s.minOrMax with | .min => min r.min r'.min | .max => max r.max r'.max)) := by
  unfold instanceComponent
  rw [rangeGet_getD, rangeGet_getD, C47_last_wins cc ha.2.2.2.2, C47_last_wins cc hc.2.2.2.2, hf, hg]
  simp only [if_neg hne]
  constructor
  · intro h; rw [h]; exact ⟨_, rfl⟩
  · intro h; rw [h]; cases s.minOrMax <;> rfl

/-- C48 is false for names with an underscore: whatever is annotated, the component is treated as if it had no range. -/
theorem C48_underscore_ignored (cc : CharClass) {p q : Str} {f g : ImplFn} {a c : ChromaticExtrinsic} (ha : Extracted cc p f a)
    (hc : Extracted cc q g c) {x : Str} (hx : '_' ∈ x) (s : Strategy) (pallet ext : Str) :
    instanceComponent x (some (a.compRanges.getD [])) (some (c.compRanges.getD [])) s pallet ext
      = instanceComponent x none none s pallet ext := by
  unfold instanceComponent
  rw [rangeGet_getD, rangeGet_getD, C47_last_wins cc ha.2.2.2.2, C47_last_wins cc hc.2.2.2.2, lastAnnotation_underscore cc hx,
    lastAnnotation_underscore cc hx]
  rfl

/-- Moreover the annotation of `a_b` is used for a component called `ab`. -/
theorem C48_underscore_clash (cc : CharClass) (lo hi : Nat) (h1 : lo ≤ hi) (h2 : hi < 2 ^ 32) :
    lastAnnotation cc (str% "ab") [.nameValue [str% "doc"] (rangeLine (str% "a_b") lo hi)] = some ⟨lo, hi⟩ := by
  rw [lastAnnotation, lastAnnotation]
  simp only
  rw [C47_generated_line cc (by decide) ?_ h1 h2]
  · rfl
  · intro c hc
    simp only [List.mem_cons, List.not_mem_nil, or_false] at hc
    rcases hc with rfl | rfl | rfl <;> (rw [cc.word_ascii _ (by decide)]; decide)

private def fnA : ImplFn :=
  { name := str% "transfer", attrs := [.nameValue [str% "doc"] (rangeLine (str% "n") 1 10), .other, .nameValue [str% "doc"] (rangeLine (str% "n") 2 20)],
    output := some (.path false [str% "Weight"]), stmts := [.expr (.path [str% "n"])] }

example : Extracted asciiClass (str% "bal.rs") fnA ⟨str% "transfer", str% "bal.rs", .var (str% "n"), some [(str% "n", ⟨2, 20⟩)]⟩ :=
  (C46_method _ _ _ _ _ _).1 rfl
example : lastAnnotation asciiClass (str% "n") fnA.attrs = some ⟨2, 20⟩ := rfl

/-! ### Several files -/

/-- C49: without `ignore_errors` all files must parse, and their results are concatenated in order. -/
theorem C49_all (f : Path → Res (List ChromaticExtrinsic)) (l : List Path) (r : List ChromaticExtrinsic) :
    parseAll f l = .ok r ↔ ∃ rs, List.Forall₂ (fun p x => f p = .ok x) l rs ∧ r = rs.flatten := by
  induction l generalizing r with
  | nil =>
    simp only [parseAll, List.forall₂_nil_left_iff]
    constructor
    · intro h; cases h; exact ⟨[], rfl, rfl⟩
    · rintro ⟨_, rfl, rfl⟩; rfl
  | cons p l ih =>
    rw [parseAll]
    constructor
    · intro h
      obtain ⟨a, ha, h⟩ := bind_eq_ok h
      obtain ⟨r', hr, h⟩ := bind_eq_ok h
      cases h
      obtain ⟨rs, h1, rfl⟩ := (ih r').1 hr
      exact ⟨a :: rs, .cons ha h1, by simp⟩
    · rintro ⟨rs, h, rfl⟩
      cases h with
      | cons h1 h2 =>
        rw [h1, Res.bind_ok, (ih _).2 ⟨_, h2, rfl⟩]
        simp

/-- C49: otherwise the error is that of the first file that does not parse. -/
theorem C49_first_error (f : Path → Res (List ChromaticExtrinsic)) (l : List Path) (m : Str) :
    parseAll f l = .err m ↔ ∃ pre p post, l = pre ++ p :: post ∧ (∀ q ∈ pre, ∃ x, f q = .ok x) ∧ f p = .err m := by
  induction l with
  | nil => simp [parseAll]
  | cons a l ih =>
    rw [parseAll]
    cases h : f a with
    | ok x =>
      rw [Res.bind_ok]
      have : (do let r ← parseAll f l; Res.ok (x ++ r)) = .err m ↔ parseAll f l = .err m := by
        cases parseAll f l <;> simp
      rw [this, ih]
      constructor
      · rintro ⟨pre, p, post, rfl, h1, h2⟩
        refine ⟨a :: pre, p, post, rfl, ?_, h2⟩
        intro q hq
        rcases List.mem_cons.1 hq with rfl | hq
        · exact ⟨x, h⟩
        · exact h1 q hq
      · rintro ⟨pre, p, post, h0, h1, h2⟩
        cases pre with
        | nil => cases h0; rw [h] at h2; cases h2
        | cons c pre => cases h0; exact ⟨pre, p, post, rfl, fun q hq => h1 q (List.mem_cons_of_mem _ hq), h2⟩
    | err e =>
      rw [Res.bind_err]
      constructor
      · intro h'; cases h'; exact ⟨[], a, l, rfl, by simp, h⟩
      · rintro ⟨pre, p, post, h0, h1, h2⟩
        cases pre with
        | nil => cases h0; rw [h] at h2; exact h2
        | cons c pre =>
          cases h0
          obtain ⟨x, hx⟩ := h1 a (by simp)
          rw [h] at hx; cases hx
    | panic =>
      rw [Res.bind_panic]
      constructor
      · intro h'; cases h'
      · rintro ⟨pre, p, post, h0, h1, h2⟩
        cases pre with
        | nil => cases h0; rw [h] at h2; cases h2
        | cons c pre =>
          cases h0
          obtain ⟨x, hx⟩ := h1 a (by simp)
          rw [h] at hx; cases hx
    | diverge =>
      rw [Res.bind_diverge]
      constructor
      · intro h'; cases h'
      · rintro ⟨pre, p, post, h0, h1, h2⟩
        cases pre with
        | nil => cases h0; rw [h] at h2; cases h2
        | cons c pre =>
          cases h0
          obtain ⟨x, hx⟩ := h1 a (by simp)
          rw [h] at hx; cases hx

/-- What a file contributes if errors are ignored. -/
def contribution : Res (List ChromaticExtrinsic) → List ChromaticExtrinsic
  | .ok x => x
  | _ => []

/-- C49: with `ignore_errors` exactly the files that do not parse are left out. -/
theorem C49_ignore (f : Path → Res (List ChromaticExtrinsic)) (l : List Path) (h : ∀ p ∈ l, Clean (f p)) :
    tryParseAll f l = .ok (l.flatMap fun p => contribution (f p)) := by
  induction l with
  | nil => rfl
  | cons p l ih =>
    rw [tryParseAll, ih fun q hq => h q (List.mem_cons_of_mem _ hq), List.flatMap_cons]
    rcases h p (by simp) with ⟨x, hx⟩ | ⟨m, hm⟩
    · rw [hx]; rfl
    · rw [hm]; rfl

/-- C49: if all files parse, ignoring errors makes no difference. -/
theorem C49_no_difference (f : Path → Res (List ChromaticExtrinsic)) (l : List Path) (r : List ChromaticExtrinsic)
    (h : parseAll f l = .ok r) : tryParseAll f l = .ok r := by
  induction l generalizing r with
  | nil => exact h
  | cons p l ih =>
    rw [parseAll] at h
    obtain ⟨a, ha, h⟩ := bind_eq_ok h
    obtain ⟨r', hr, h⟩ := bind_eq_ok h
    rw [tryParseAll, ha, ih r' hr]
    exact h

/-- C49: a panic is not ignored. -/
theorem C49_panic (f : Path → Res (List ChromaticExtrinsic)) (pre post : List Path) (p : Path) (h : ∀ q ∈ pre, Clean (f q))
    (hp : f p = .panic) : tryParseAll f (pre ++ p :: post) = .panic := by
  induction pre with
  | nil => rw [List.nil_append, tryParseAll, hp]; rfl
  | cons a l ih =>
    rw [List.cons_append, tryParseAll, ih fun q hq => h q (List.mem_cons_of_mem _ hq)]
    rcases h a (by simp) with ⟨x, hx⟩ | ⟨m, hm⟩
    · rw [hx]; rfl
    · rw [hm]; rfl

/-- C49: such a panic exists: a weight function consisting of a single macro call (`todo!();`). -/
theorem C49_panic_exists (env : Env) (hsyn : ∀ s, env.syn s = .ok
    [.impl (.tuple 0) [.fn ⟨str% "f", [], some (.path false [str% "Weight"]), [.other]⟩]]) (fs : Fs) (name content : Str)
    (hs : fs [.normal name] = .ok content) : tryParseFiles env fs [[.normal name]] = .panic := by
  simp [tryParseFiles, tryParseAll, parseFile, readFile, hs, PathStripping.strip, Path.fileName, withFile, parseContent, hsyn, firstOk,
    handleItem, checkSelfTy, handleMethods, handleMethod, checkOutput, onlyExpr]
  rfl

private def good (n : Str) : List ChromaticExtrinsic := [⟨n, n, .var n, none⟩]
private def files : Path → Res (List ChromaticExtrinsic)
  | [.normal n] => if n = str% "bad" then .err (str% "bad") else .ok (good n)
  | _ => .err (str% "x")

example : tryParseAll files [[.normal (str% "a")], [.normal (str% "bad")], [.normal (str% "c")]] = .ok (good (str% "a") ++ good (str% "c")) := rfl
example : parseAll files [[.normal (str% "a")], [.normal (str% "bad")], [.normal (str% "c")]] = .err (str% "bad") := rfl
example : parseAll files [[.normal (str% "a")], [.normal (str% "c")]] = .ok (good (str% "a") ++ good (str% "c")) := rfl
example : ∀ p, Clean (files p) := by
  intro p
  unfold files
  split
  · split
    · exact .inr ⟨_, rfl⟩
    · exact clean_ok _
  · exact .inr ⟨_, rfl⟩

/-! ### Panics -/

/-- A literal satisfying `P` occurs where the parser can see it. -/
inductive HasLit (P : Lit → Prop) : Expr → Prop
  | lit {l : Lit} (h : P l) : HasLit P (.lit l)
  | paren {e : Expr} (h : HasLit P e) : HasLit P (.paren e)
  | cast {e : Expr} (h : HasLit P e) : HasLit P (.cast e)
  | recv {r : Expr} {m : Str} {args : List Expr} {tr : Bool} (h : HasLit P r) : HasLit P (.methodCall r m args tr)
  | marg {r : Expr} {m : Str} {args : List Expr} {tr : Bool} {a : Expr} (ha : a ∈ args) (h : HasLit P a) : HasLit P (.methodCall r m args tr)
  | carg {f : Expr} {args : List Expr} {tr : Bool} {a : Expr} (ha : a ∈ args) (h : HasLit P a) : HasLit P (.call f args tr)

/-- A literal that is not an integer, or an integer of 2^128 or more. -/
def BadLit (l : Lit) : Prop := ∀ digits n, l = .int digits → readNat digits = some n → 2 ^ 128 ≤ n

theorem litToValue_clean {l : Lit} (h : ¬ BadLit l) : ∃ n, litToValue l = .ok n := by
  unfold BadLit at h
  push Not at h
  obtain ⟨digits, n, rfl, h1, h2⟩ := h
  rw [litToValue, parseUInt_of_readNat h1, if_pos (by exact h2)]
  exact ⟨n, rfl⟩

theorem validateDbCall_clean (r : Expr) : Clean (validateDbCall r) := by
  unfold validateDbCall
  split
  · refine clean_bind ?_ fun _ _ => ?_
    · unfold validateDbFunc
      split
      · dsimp only
        split
        · exact .inr ⟨_, rfl⟩
        · exact clean_ok _
      · exact .inr ⟨_, rfl⟩
    · split
      · exact clean_ok _
      · exact .inr ⟨_, rfl⟩
  · exact .inr ⟨_, rfl⟩

theorem functionName_clean (r : Expr) : Clean (functionName r) := by
  unfold functionName
  split
  · exact clean_ok _
  · exact .inr ⟨_, rfl⟩

theorem parseScalar_clean {e : Expr} (h : ¬ HasLit BadLit e) : Clean (parseScalar e) := by
  fun_induction parseScalar e with
  | case1 e ih => exact ih fun h' => h (.cast h')
  | case2 e ih => exact ih fun h' => h (.paren h')
  | case3 l =>
    obtain ⟨n, hn⟩ := litToValue_clean fun h' => h (.lit h')
    rw [hn]; exact clean_ok _
  | case4 => exact clean_ok _
  | case5 r args tr _ ih => exact ih fun h' => h (.recv h')
  | case7 r args tr _ ih =>
    refine clean_bind (validateDbCall_clean r) fun _ _ => ?_
    split at ih
    · exact clean_bind (ih fun h' => h (.marg (by simp) h')) fun _ _ => clean_ok _
    · exact .inr ⟨_, rfl⟩
  | case8 r args tr _ _ ih =>
    refine clean_bind (validateDbCall_clean r) fun _ _ => ?_
    split at ih
    · exact clean_bind (ih fun h' => h (.marg (by simp) h')) fun _ _ => clean_ok _
    · exact .inr ⟨_, rfl⟩
  | case9 r args tr _ _ _ ih2 ih =>
    refine clean_bind (ih2 fun h' => h (.recv h')) fun _ _ => ?_
    split at ih
    · exact clean_bind (ih fun h' => h (.marg (by simp) h')) fun _ _ => clean_ok _
    · exact .inr ⟨_, rfl⟩
  | case10 r args tr _ _ _ _ ih2 ih =>
    refine clean_bind (ih2 fun h' => h (.recv h')) fun _ _ => ?_
    split at ih
    · exact clean_bind (ih fun h' => h (.marg (by simp) h')) fun _ _ => clean_ok _
    · exact .inr ⟨_, rfl⟩
  | case11 r args tr _ _ _ _ _ ih => exact ih fun h' => h (.recv h')
  | case13 f args tr ih =>
    refine clean_bind (functionName_clean f) fun _ _ => ?_
    split
    · split at ih
      · exact ih fun h' => h (.carg (by simp) h')
      · exact .inr ⟨_, rfl⟩
    · split
      · split
        · exact clean_ok _
        · exact .inr ⟨_, rfl⟩
      · exact .inr ⟨_, rfl⟩
  | _ => exact .inr ⟨_, rfl⟩

theorem parseRw_clean {e : Expr} (h : ¬ HasLit BadLit e) : Clean (parseRw e) := by
  unfold parseRw
  split
  · obtain ⟨n, hn⟩ := litToValue_clean fun h' => h (.lit h')
    rw [hn]; exact clean_ok _
  · exact clean_bind (parseScalar_clean h) fun _ _ => clean_ok _

theorem parseCall_clean {f : Expr} {args : List Expr} {tr : Bool} (h : ∀ a ∈ args, ¬ HasLit BadLit a) : Clean (parseCall f args tr) := by
  unfold parseCall
  refine clean_bind (functionName_clean f) fun _ _ => ?_
  split
  · split
    · exact clean_bind (parseScalar_clean (h _ (by simp))) fun _ _ => clean_ok _
    · exact .inr ⟨_, rfl⟩
  · split
    · split
      · exact clean_bind (parseScalar_clean (h _ (by simp))) fun _ _ => clean_ok _
      · exact .inr ⟨_, rfl⟩
    · split
      · split
        · exact clean_bind (parseScalar_clean (h _ (by simp))) fun _ _ =>
            clean_bind (parseScalar_clean (h _ (by simp))) fun _ _ => clean_ok _
        · exact .inr ⟨_, rfl⟩
      · split
        · split
          · exact clean_ok _
          · exact .inr ⟨_, rfl⟩
        · exact .inr ⟨_, rfl⟩

theorem parseExpression_clean {e : Expr} (h : ¬ HasLit BadLit e) : Clean (parseExpression e) := by
  fun_induction parseExpression e with
  | case1 e ih => exact ih fun h' => h (.paren h')
  | case2 e ih => exact ih fun h' => h (.cast h')
  | case3 => exact clean_ok _
  | case4 f args tr => exact parseCall_clean fun a ha h' => h (.carg ha h')
  | case5 r args tr =>
    refine clean_bind (validateDbCall_clean r) fun _ _ => ?_
    split
    · exact clean_bind (parseRw_clean fun h' => h (.marg (by simp) h')) fun _ _ => clean_ok _
    · exact .inr ⟨_, rfl⟩
  | case6 r args tr =>
    refine clean_bind (validateDbCall_clean r) fun _ _ => ?_
    split
    · exact clean_bind (parseRw_clean fun h' => h (.marg (by simp) h')) fun _ _ => clean_ok _
    · exact .inr ⟨_, rfl⟩
  | case7 r args tr _ _ ih2 ih =>
    refine clean_bind (ih2 fun h' => h (.recv h')) fun _ _ => ?_
    split at ih
    · exact clean_bind (ih fun h' => h (.marg (by simp) h')) fun _ _ => clean_ok _
    · exact .inr ⟨_, rfl⟩
  | case8 r args tr _ _ _ ih2 ih =>
    refine clean_bind (ih2 fun h' => h (.recv h')) fun _ _ => ?_
    split at ih
    · exact clean_bind (ih fun h' => h (.marg (by simp) h')) fun _ _ => clean_ok _
    · exact .inr ⟨_, rfl⟩
  | case9 r args tr _ _ _ _ ih => exact ih fun h' => h (.recv h')
  | _ => exact .inr ⟨_, rfl⟩

theorem parseBody_clean {e : Expr} (h : ¬ HasLit BadLit e) : Clean (parseBody e) := by
  unfold parseBody
  rcases parseExpression_clean h with ⟨t, ht⟩ | ⟨m, hm⟩
  · rw [ht]; exact clean_ok _
  · rw [hm]
    exact clean_bind (parseScalar_clean h) fun _ _ => clean_ok _

theorem checkOutput_clean (n : Str) (o : Option Ty) : Clean (checkOutput n o) := by
  unfold checkOutput
  repeat' split
  all_goals first | exact clean_ok _ | exact .inr ⟨_, rfl⟩

theorem parseBound_clean (w s : Str) : Clean (parseBound w s) := by
  unfold parseBound
  split
  · exact clean_ok _
  · exact .inr ⟨_, rfl⟩

theorem parseComponentAttr_clean (cc : CharClass) (a : Attr) : Clean (parseComponentAttr cc a) := by
  unfold parseComponentAttr
  split
  · split
    · exact clean_ok _
    · split
      · exact clean_ok _
      · refine clean_bind (parseBound_clean _ _) fun _ _ => clean_bind (parseBound_clean _ _) fun _ _ => ?_
        split
        · exact .inr ⟨_, rfl⟩
        · exact clean_ok _
  · exact clean_ok _

theorem collectRanges_clean (cc : CharClass) (acc : BMap ComponentRange) (l : List Attr) : Clean (collectRanges cc acc l) := by
  induction l generalizing acc with
  | nil => exact clean_ok _
  | cons a l ih =>
    rw [collectRanges]
    refine clean_bind (parseComponentAttr_clean cc a) fun r _ => ?_
    split
    · exact ih _
    · exact ih _

/-- The functions that can make the parser panic: those whose body is one statement that is not an expression, or one expression
containing a literal that is not an integer below 2^128. -/
def Hostile (f : ImplFn) : Prop := f.stmts = [.other] ∨ ∃ e, f.stmts = [.expr e] ∧ HasLit BadLit e

theorem handleMethod_clean (cc : CharClass) {f : ImplFn} (h : ¬ Hostile f) : Clean (handleMethod cc f) := by
  unfold handleMethod
  refine clean_bind (checkOutput_clean _ _) fun _ _ => ?_
  have h1 : Clean (onlyExpr f.stmts) := by
    unfold onlyExpr
    split
    · exact clean_ok _
    · rename_i hs; exact absurd (.inl hs) h
    · exact .inr ⟨_, rfl⟩
  refine clean_bind h1 fun e he => ?_
  have h2 : ¬ HasLit BadLit e := fun h' => h (.inr ⟨e, (onlyExpr_iff _ _).1 he, h'⟩)
  refine clean_bind (parseBody_clean h2) fun _ _ => clean_bind ?_ fun _ _ => clean_ok _
  exact clean_bind (collectRanges_clean _ _ _) fun _ _ => clean_ok _

/-- C49: the pallet parser ends with a result or an error, except for files containing a hostile function.  In particular it always
terminates. -/
theorem C49_no_panic {syn : SynParser} (cc : CharClass) (pallet content : Str)
    (h : ∀ items ty its f, syn content = .ok items → .impl ty its ∈ items → f ∈ functions its → ¬ Hostile f) :
    Clean (parseContent syn cc pallet content) := by
  unfold parseContent
  split
  · exact .inr ⟨_, rfl⟩
  · rename_i items hs
    have h' : ∀ ty its f, .impl ty its ∈ items → f ∈ functions its → ¬ Hostile f := fun ty its f => h items ty its f hs
    clear h hs
    induction items with
    | nil => exact .inr ⟨_, rfl⟩
    | cons i l ih =>
      rw [firstOk]
      have hi : Clean (handleItem cc pallet i) := by
        cases i with
        | impl ty its =>
          rw [handleItem]
          refine clean_bind (checkSelfTy_clean ty) fun _ _ => clean_bind ?_ fun _ _ => ?_
          · have h2 := fun f => h' ty its f (by simp)
            clear h' ih
            induction its with
            | nil => exact clean_ok _
            | cons i its ih =>
              cases i with
              | other => rw [handleMethods]; exact ih h2
              | fn f =>
                rw [handleMethods]
                refine clean_bind (handleMethod_clean cc (h2 f (by simp [functions]))) fun _ _ => ?_
                exact clean_bind (ih fun g hg => h2 g (by simp [functions, hg])) fun _ _ => clean_ok _
          · split
            · exact .inr ⟨_, rfl⟩
            · exact clean_ok _
        | _ => exact .inr ⟨_, rfl⟩
      rcases hi with ⟨r, hr⟩ | ⟨m, hm⟩
      · rw [hr]; exact clean_ok _
      · rw [hm]; exact ih fun ty its f hf => h' ty its f (List.mem_cons_of_mem _ hf)

example : ¬ Hostile fnA := by
  rintro (h | ⟨e, h, h'⟩)
  · cases h
  · cases h; cases h'

/-- C49: literals from 2^128 on do make the parser panic. -/
theorem C49_big_literal (digits : Str) (n : Nat) (h : readNat digits = some n) (hn : 2 ^ 128 ≤ n) :
    parseBody (.call (.path [str% "Weight", str% "from_ref_time"]) [.lit (.int digits)] false) = .panic := by
  rw [parseBody, pe_fromRefTime (by decide), parseScalar, litToValue, parseUInt_of_readNat h, if_neg (by simp only [u128Size]; omega)]
  rfl

private def fnB : ImplFn := { name := str% "burn", attrs := [], output := some (.path false [str% "Weight"]), stmts := [.expr (.path [str% "k"])] }
private def helper : ImplFn := { name := str% "helper", attrs := [], output := some (.path false [str% "u64"]), stmts := [.expr (.path [str% "k"])] }

/-- The first block contains a helper that is not a weight and is skipped as a whole; the functions come from the second block. -/
example : parseContent (fun _ => .ok [.other, .impl (.path false [str% "SubstrateWeight"]) [.fn fnA, .fn helper],
      .impl (.tuple 0) [.fn fnB, .other, .fn fnA]]) asciiClass (str% "bal.rs") [] =
    .ok [⟨str% "burn", str% "bal.rs", .var (str% "k"), none⟩, ⟨str% "transfer", str% "bal.rs", .var (str% "n"), some [(str% "n", ⟨2, 20⟩)]⟩] := rfl

end Swc
