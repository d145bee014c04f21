/-
C37: sorting the report (`core/src/lib.rs:766-798`).
-/
import Mathlib.Data.Prod.Lex
import Mathlib.Data.List.Basic
import Verif.Model.Sort
import Verif.Spec.Compare
import Verif.Lemmas.Order

namespace Swc

open Spec

namespace Spec

/-- `s` is the list `l` sorted: first all elements with `bad`, in some order, then the others ascending by `key`, elements with the same
key in the order of `l`. -/
structure SortedBadFirst {α K : Type} [LinearOrder K] (bad : α → Bool) (key : α → K) (l s : List α) : Prop where
  perm : s.Perm l
  split : ∃ f r, s = f ++ r ∧ (∀ x ∈ f, bad x = true) ∧ (∀ x ∈ r, bad x = false) ∧ r.Pairwise (fun a b => key a ≤ key b)
  stable : ∀ k, s.filter (fun x => !bad x && decide (key x = k)) = l.filter (fun x => !bad x && decide (key x = k))

end Spec

section
variable {α K : Type} [LinearOrder K] {bad : α → Bool} {key : α → K} {less : α → α → Bool}

/-- The comparison function: a bad element is less than everything, else the keys decide. -/
structure BadLess (bad : α → Bool) (key : α → K) (less : α → α → Bool) : Prop where
  left : ∀ a b, bad a = true → less a b = true
  right : ∀ a b, bad a = false → bad b = true → less a b = false
  keys : ∀ a b, bad a = false → bad b = false → (less a b = true ↔ key a < key b)

namespace BadLess

variable (h : BadLess bad key less)
include h

theorem not_less {a b : α} (ha : bad a = false) (hb : bad b = false) : less a b = false ↔ key b ≤ key a := by
  rw [← Bool.not_eq_true, h.keys a b ha hb, not_lt]

theorem insertRev_bad {x : α} (hx : bad x = true) (l : List α) : insertRev less x l = l ++ [x] := by
  induction l with
  | nil => rfl
  | cons y l ih => rw [insertRev, if_pos (h.left x y hx), ih]; rfl

/-- Inserting a good element stays within the good part. -/
theorem insertRev_good {x : α} (hx : bad x = false) (r f : List α) (hr : ∀ y ∈ r, bad y = false) (hf : ∀ y ∈ f, bad y = true) :
    insertRev less x (r ++ f) = insertRev less x r ++ f := by
  induction r with
  | nil =>
    cases f with
    | nil => rfl
    | cons y f =>
      have : ¬ less x y = true := by rw [h.right x y hx (hf y List.mem_cons_self)]; simp
      rw [List.nil_append]
      simp only [insertRev]
      rw [if_neg this]
      rfl
  | cons y r ih =>
    rw [List.cons_append, insertRev, insertRev]
    split
    · rw [ih fun z hz => hr z (List.mem_cons_of_mem _ hz)]; rfl
    · rfl

omit [LinearOrder K] h in
theorem insertRev_perm (x : α) (l : List α) : (insertRev less x l).Perm (x :: l) := by
  induction l with
  | nil => exact .refl _
  | cons y l ih =>
    rw [insertRev]
    split
    · exact (ih.cons y).trans (.swap x y l)
    · exact .refl _

omit [LinearOrder K] h in
theorem mem_insertRev {x y : α} {l : List α} : y ∈ insertRev less x l ↔ y = x ∨ y ∈ l := by
  rw [(insertRev_perm x l).mem_iff, List.mem_cons]

/-- Descending order of the reversed good part is kept. -/
theorem insertRev_desc {x : α} (hx : bad x = false) {r : List α} (hr : ∀ y ∈ r, bad y = false)
    (hs : r.Pairwise (fun a b => key b ≤ key a)) : (insertRev less x r).Pairwise (fun a b => key b ≤ key a) := by
  induction r with
  | nil => simp [insertRev]
  | cons y r ih =>
    obtain ⟨h1, h2⟩ := List.pairwise_cons.1 hs
    rw [insertRev]
    split
    · rename_i hl
      have hk := (h.keys x y hx (hr y List.mem_cons_self)).1 hl
      refine List.pairwise_cons.2 ⟨?_, ih (fun z hz => hr z (List.mem_cons_of_mem _ hz)) h2⟩
      intro z hz
      rcases (mem_insertRev).1 hz with rfl | hz
      · exact hk.le
      · exact h1 z hz
    · rename_i hl
      rw [Bool.not_eq_true, h.not_less hx (hr y List.mem_cons_self)] at hl
      refine List.pairwise_cons.2 ⟨?_, hs⟩
      intro z hz
      rcases List.mem_cons.1 hz with rfl | hz
      · exact hl
      · exact (h1 z hz).trans hl

/-- The inserted element ends up after (in reversed order: before) all elements of its key. -/
theorem insertRev_stable {x : α} (hx : bad x = false) {r : List α} (hr : ∀ y ∈ r, bad y = false) (k : K) :
    (insertRev less x r).filter (fun y => !bad y && decide (key y = k))
      = (x :: r).filter (fun y => !bad y && decide (key y = k)) := by
  induction r with
  | nil => rfl
  | cons y r ih =>
    rw [insertRev]
    split
    · rename_i hl
      have hk := (h.keys x y hx (hr y List.mem_cons_self)).1 hl
      have ih := ih fun z hz => hr z (List.mem_cons_of_mem _ hz)
      rw [List.filter_cons, ih]
      by_cases h1 : key y = k
      · have h2 : ¬ key x = k := fun e => by rw [e, h1] at hk; exact lt_irrefl _ hk
        simp [List.filter_cons, h1, h2]
      · simp [List.filter_cons, h1]
    · rfl

theorem insertTail_sorted {x : α} {l l' : List α} (hl : SortedBadFirst bad key l l') :
    SortedBadFirst bad key (l ++ [x]) (insertTail less x l') := by
  obtain ⟨hp, ⟨f, r, rfl, hf, hr, hs⟩, hst⟩ := hl
  have hperm : (insertTail less x (f ++ r)).Perm (l ++ [x]) := by
    unfold insertTail
    refine (List.reverse_perm _).trans ((insertRev_perm x _).trans ?_)
    exact ((((List.reverse_perm _).trans hp).cons x)).trans (List.perm_append_singleton x l).symm
  cases hx : bad x with
  | true =>
    have e : insertTail less x (f ++ r) = (x :: f) ++ r := by
      unfold insertTail
      rw [h.insertRev_bad hx, List.reverse_append, List.reverse_reverse]
      rfl
    refine ⟨hperm, ⟨x :: f, r, e, ?_, hr, hs⟩, ?_⟩
    · intro y hy
      rcases List.mem_cons.1 hy with rfl | hy
      · exact hx
      · exact hf y hy
    · intro k
      rw [e, List.cons_append, List.filter_cons, List.filter_append l, ← hst k]
      simp [hx]
  | false =>
    have hrr : ∀ y ∈ r.reverse, bad y = false := fun y hy => hr y (List.mem_reverse.1 hy)
    have e : insertTail less x (f ++ r) = f ++ (insertRev less x r.reverse).reverse := by
      unfold insertTail
      rw [List.reverse_append, h.insertRev_good hx _ _ hrr (fun y hy => hf y (List.mem_reverse.1 hy)), List.reverse_append,
        List.reverse_reverse]
    refine ⟨hperm, ⟨f, _, e, hf, ?_, ?_⟩, ?_⟩
    · intro y hy
      rcases (mem_insertRev).1 (List.mem_reverse.1 hy) with rfl | hy
      · exact hx
      · exact hrr y hy
    · rw [List.pairwise_reverse]
      exact h.insertRev_desc hx hrr (List.pairwise_reverse.2 hs)
    · intro k
      rw [e, List.filter_append, List.filter_append, ← hst k, List.filter_append, List.append_assoc]
      congr 1
      rw [List.filter_reverse, h.insertRev_stable hx hrr k, ← List.filter_reverse, List.reverse_cons, List.reverse_reverse,
        List.filter_append]

/-! #### Runs -/

theorem asc_sorted {l : List α} (hc : l.IsChain (fun a b => less b a = false)) : SortedBadFirst bad key l l := by
  refine ⟨.refl _, ?_, fun _ => rfl⟩
  have tail : ∀ (x : α) (l : List α), (x :: l).IsChain (fun a b => less b a = false) →
      (∀ y ∈ l, bad y = false) ∧ (bad x = false → (x :: l).Pairwise (fun a b => key a ≤ key b)) ∧
      l.Pairwise (fun a b => key a ≤ key b) := by
    intro x l
    induction l generalizing x with
    | nil => intro _; exact ⟨by simp, by simp, .nil⟩
    | cons y l ih =>
      intro hc
      rw [List.isChain_cons_cons] at hc
      obtain ⟨h1, h2, h3⟩ := ih y hc.2
      have hy : bad y = false := by
        cases hy : bad y with
        | false => rfl
        | true => rw [h.left y x hy] at hc; cases hc.1
      refine ⟨?_, ?_, h2 hy⟩
      · intro z hz
        rcases List.mem_cons.1 hz with rfl | hz
        · exact hy
        · exact h1 z hz
      · intro hx
        refine List.pairwise_cons.2 ⟨?_, h2 hy⟩
        have hxy := (h.not_less hy hx).1 hc.1
        intro z hz
        rcases List.mem_cons.1 hz with rfl | hz
        · exact hxy
        · exact hxy.trans ((List.pairwise_cons.1 (h2 hy)).1 z hz)
  cases l with
  | nil => exact ⟨[], [], rfl, by simp, by simp, .nil⟩
  | cons x l =>
    obtain ⟨h1, h2, h3⟩ := tail x l hc
    cases hx : bad x with
    | true => exact ⟨[x], l, rfl, by simpa using hx, h1, h3⟩
    | false =>
      refine ⟨[], x :: l, rfl, by simp, ?_, h2 hx⟩
      intro y hy
      rcases List.mem_cons.1 hy with rfl | hy
      · exact hx
      · exact h1 y hy

theorem desc_sorted {l : List α} (hc : l.IsChain (fun a b => less b a = true)) : SortedBadFirst bad key l l.reverse := by
  have split : ∃ r f, l = r ++ f ∧ (∀ y ∈ r, bad y = false) ∧ (∀ y ∈ f, bad y = true) ∧ r.Pairwise (fun a b => key b < key a) := by
    induction l with
    | nil => exact ⟨[], [], rfl, by simp, by simp, .nil⟩
    | cons x l ih =>
      have hc' : l.IsChain (fun a b => less b a = true) := by
        cases l with
        | nil => exact .nil
        | cons z l => exact (List.isChain_cons_cons.1 hc).2
      obtain ⟨r, f, e, h1, h2, h3⟩ := ih hc'
      cases hx : bad x with
      | false =>
        refine ⟨x :: r, f, by rw [e]; rfl, ?_, h2, ?_⟩
        · intro y hy
          rcases List.mem_cons.1 hy with rfl | hy
          · exact hx
          · exact h1 y hy
        · refine List.pairwise_cons.2 ⟨?_, h3⟩
          cases r with
          | nil => simp
          | cons y r =>
            rw [e, List.cons_append, List.isChain_cons_cons] at hc
            have hyx := (h.keys y x (h1 y List.mem_cons_self) hx).1 hc.1
            intro z hz
            rcases List.mem_cons.1 hz with rfl | hz
            · exact hyx
            · exact ((List.pairwise_cons.1 h3).1 z hz).trans hyx
      | true =>
        cases r with
        | nil =>
          refine ⟨[], x :: f, by rw [e]; rfl, by simp, ?_, .nil⟩
          intro y hy
          rcases List.mem_cons.1 hy with rfl | hy
          · exact hx
          · exact h2 y hy
        | cons y r =>
          exfalso
          rw [e, List.cons_append, List.isChain_cons_cons] at hc
          rw [h.right y x (h1 y List.mem_cons_self) hx] at hc
          cases hc.1
  obtain ⟨r, f, e, h1, h2, h3⟩ := split
  refine ⟨List.reverse_perm _, ⟨f.reverse, r.reverse, by rw [e, List.reverse_append], ?_, ?_, ?_⟩, ?_⟩
  · exact fun y hy => h2 y (List.mem_reverse.1 hy)
  · exact fun y hy => h1 y (List.mem_reverse.1 hy)
  · rw [List.pairwise_reverse]
    exact h3.imp fun h => h.le
  · intro k
    rw [List.filter_reverse]
    have hlen : (l.filter (fun x => !bad x && decide (key x = k))).length ≤ 1 := by
      rw [e, List.filter_append]
      have hf : f.filter (fun x => !bad x && decide (key x = k)) = [] := by
        rw [List.filter_eq_nil_iff]
        intro y hy
        simp [h2 y hy]
      rw [hf, List.append_nil]
      have hpw : (r.filter (fun x => !bad x && decide (key x = k))).Pairwise (fun a b => key b < key a) := h3.filter _
      have hk : ∀ y ∈ r.filter (fun x => !bad x && decide (key x = k)), key y = k := by
        intro y hy
        have := (List.mem_filter.1 hy).2
        rw [Bool.and_eq_true, decide_eq_true_eq] at this
        exact this.2
      generalize r.filter (fun x => !bad x && decide (key x = k)) = q at hpw hk
      cases q with
      | nil => simp
      | cons a q =>
        cases q with
        | nil => simp
        | cons c q =>
          exfalso
          have := (List.pairwise_cons.1 hpw).1 c List.mem_cons_self
          rw [hk a List.mem_cons_self, hk c (List.mem_cons_of_mem _ List.mem_cons_self)] at this
          exact lt_irrefl _ this
    generalize l.filter (fun x => !bad x && decide (key x = k)) = q at hlen
    cases q with
    | nil => rfl
    | cons a q =>
      cases q with
      | nil => rfl
      | cons c q => simp at hlen

/-! #### Merges -/

omit [LinearOrder K] h in
theorem mergeFwd_nil_left (r : List α) : mergeFwd less [] r = r := by rw [mergeFwd]

omit [LinearOrder K] h in
theorem mergeFwd_nil_right (l : List α) : mergeFwd less l [] = l := by cases l <;> simp [mergeFwd]

omit [LinearOrder K] h in
theorem mergeFwd_cons (a b : α) (l r : List α) :
    mergeFwd less (a :: l) (b :: r) = if less b a then b :: mergeFwd less (a :: l) r else a :: mergeFwd less l (b :: r) := by
  rw [mergeFwd]

omit [LinearOrder K] h in
theorem mergeRev_nil_left (r : List α) : mergeRev less [] r = r := by rw [mergeRev]

omit [LinearOrder K] h in
theorem mergeRev_nil_right (l : List α) : mergeRev less l [] = l := by cases l <;> simp [mergeRev]

omit [LinearOrder K] h in
theorem mergeRev_cons (a b : α) (l r : List α) :
    mergeRev less (a :: l) (b :: r) = if less b a then a :: mergeRev less l (b :: r) else b :: mergeRev less (a :: l) r := by
  rw [mergeRev]

omit [LinearOrder K] h in
theorem mergeFwd_perm (l r : List α) : (mergeFwd less l r).Perm (l ++ r) := by
  induction l generalizing r with
  | nil => rw [mergeFwd_nil_left]; exact .refl _
  | cons a l ihl =>
    induction r with
    | nil => rw [mergeFwd_nil_right, List.append_nil]
    | cons b r ihr =>
      rw [mergeFwd_cons]
      split
      · exact (ihr.cons b).trans List.perm_middle.symm
      · exact (ihl (b :: r)).cons a

omit [LinearOrder K] h in
theorem mergeRev_perm (l r : List α) : (mergeRev less l r).Perm (l ++ r) := by
  induction l generalizing r with
  | nil => rw [mergeRev_nil_left]; exact .refl _
  | cons a l ihl =>
    induction r with
    | nil => rw [mergeRev_nil_right, List.append_nil]
    | cons b r ihr =>
      rw [mergeRev_cons]
      split
      · exact (ihl (b :: r)).cons a
      · exact (ihr.cons b).trans List.perm_middle.symm

theorem mergeFwd_bad_right (l f r : List α) (hf : ∀ y ∈ f, bad y = true) : mergeFwd less l (f ++ r) = f ++ mergeFwd less l r := by
  cases l with
  | nil => rw [mergeFwd_nil_left, mergeFwd_nil_left]
  | cons a l =>
    induction f with
    | nil => rfl
    | cons y f ih =>
      rw [List.cons_append, mergeFwd_cons, if_pos (h.left y a (hf y List.mem_cons_self)), ih fun z hz => hf z (List.mem_cons_of_mem _ hz)]
      rfl

theorem mergeFwd_bad_left (f l r : List α) (hf : ∀ y ∈ f, bad y = true) (hr : ∀ y ∈ r, bad y = false) :
    mergeFwd less (f ++ l) r = f ++ mergeFwd less l r := by
  cases r with
  | nil => rw [mergeFwd_nil_right, mergeFwd_nil_right]
  | cons b r =>
    induction f with
    | nil => rfl
    | cons y f ih =>
      rw [List.cons_append, mergeFwd_cons, if_neg (by rw [h.right b y (hr b List.mem_cons_self) (hf y List.mem_cons_self)]; simp),
        ih fun z hz => hf z (List.mem_cons_of_mem _ hz)]
      rfl

theorem mergeFwd_asc {l r : List α} (hl : ∀ y ∈ l, bad y = false) (hr : ∀ y ∈ r, bad y = false)
    (sl : l.Pairwise (fun a b => key a ≤ key b)) (sr : r.Pairwise (fun a b => key a ≤ key b)) :
    (mergeFwd less l r).Pairwise (fun a b => key a ≤ key b) := by
  induction l generalizing r with
  | nil => rw [mergeFwd_nil_left]; exact sr
  | cons a l ihl =>
    induction r with
    | nil => rw [mergeFwd_nil_right]; exact sl
    | cons b r ihr =>
      have ha := hl a List.mem_cons_self
      have hb := hr b List.mem_cons_self
      obtain ⟨a1, a2⟩ := List.pairwise_cons.1 sl
      obtain ⟨b1, b2⟩ := List.pairwise_cons.1 sr
      rw [mergeFwd_cons]
      split
      · rename_i hless
        have hk := (h.keys b a hb ha).1 hless
        refine List.pairwise_cons.2 ⟨?_, ihr (fun y hy => hr y (List.mem_cons_of_mem _ hy)) b2⟩
        intro z hz
        rcases List.mem_append.1 ((mergeFwd_perm _ _).mem_iff.1 hz) with hz | hz
        · rcases List.mem_cons.1 hz with rfl | hz
          · exact hk.le
          · exact hk.le.trans (a1 z hz)
        · exact b1 z hz
      · rename_i hless
        rw [Bool.not_eq_true, h.not_less hb ha] at hless
        refine List.pairwise_cons.2 ⟨?_, ihl (fun y hy => hl y (List.mem_cons_of_mem _ hy)) hr a2 sr⟩
        intro z hz
        rcases List.mem_append.1 ((mergeFwd_perm _ _).mem_iff.1 hz) with hz | hz
        · exact a1 z hz
        · rcases List.mem_cons.1 hz with rfl | hz
          · exact hless
          · exact hless.trans (b1 z hz)

theorem mergeFwd_stable {l r : List α} (hl : ∀ y ∈ l, bad y = false) (hr : ∀ y ∈ r, bad y = false)
    (sl : l.Pairwise (fun a b => key a ≤ key b)) (k : K) :
    (mergeFwd less l r).filter (fun y => !bad y && decide (key y = k))
      = l.filter (fun y => !bad y && decide (key y = k)) ++ r.filter (fun y => !bad y && decide (key y = k)) := by
  induction l generalizing r with
  | nil => rw [mergeFwd_nil_left]; rfl
  | cons a l ihl =>
    induction r with
    | nil => rw [mergeFwd_nil_right]; simp
    | cons b r ihr =>
      have ha := hl a List.mem_cons_self
      have hb := hr b List.mem_cons_self
      obtain ⟨a1, a2⟩ := List.pairwise_cons.1 sl
      rw [mergeFwd_cons]
      split
      · rename_i hless
        have hk := (h.keys b a hb ha).1 hless
        have ih := ihr (fun y hy => hr y (List.mem_cons_of_mem _ hy))
        rw [List.filter_cons, ih, List.filter_cons (xs := r)]
        by_cases hbk : key b = k
        · have hnil : (a :: l).filter (fun y => !bad y && decide (key y = k)) = [] := by
            rw [List.filter_eq_nil_iff]
            intro z hz hzk
            rw [Bool.and_eq_true, decide_eq_true_eq] at hzk
            rw [← hbk] at hzk
            rcases List.mem_cons.1 hz with rfl | hz
            · rw [hzk.2] at hk; exact lt_irrefl _ hk
            · have := a1 z hz
              rw [hzk.2] at this
              exact lt_irrefl _ (lt_of_lt_of_le hk this)
          rw [hnil]
          rfl
        · simp [hbk]
      · have ih := ihl (r := b :: r) (fun y hy => hl y (List.mem_cons_of_mem _ hy)) hr a2
        rw [List.filter_cons, ih, List.filter_cons (xs := l)]
        split <;> rfl

theorem mergeRev_bad_right (l f : List α) (hf : ∀ y ∈ f, bad y = true) : mergeRev less l f = l ++ f := by
  cases f with
  | nil => rw [mergeRev_nil_right, List.append_nil]
  | cons y f =>
    induction l with
    | nil => rw [mergeRev_nil_left]; rfl
    | cons a l ih => rw [mergeRev_cons, if_pos (h.left y a (hf y List.mem_cons_self)), ih]; rfl

theorem mergeRev_bad_left (f r : List α) (hf : ∀ y ∈ f, bad y = true) (f' : List α) (hf' : ∀ y ∈ f', bad y = true)
    (hr : ∀ y ∈ r, bad y = false) : mergeRev less f (r ++ f') = r ++ (f ++ f') := by
  cases f with
  | nil => rw [mergeRev_nil_left]; rfl
  | cons y f =>
    induction r with
    | nil => rw [List.nil_append, h.mergeRev_bad_right _ _ hf']; rfl
    | cons b r ih =>
      rw [List.cons_append, mergeRev_cons, if_neg (by rw [h.right b y (hr b List.mem_cons_self) (hf y List.mem_cons_self)]; simp),
        ih fun z hz => hr z (List.mem_cons_of_mem _ hz)]
      rfl

theorem mergeRev_split (l f r f' : List α) (hl : ∀ y ∈ l, bad y = false) (hr : ∀ y ∈ r, bad y = false)
    (hf : ∀ y ∈ f, bad y = true) (hf' : ∀ y ∈ f', bad y = true) :
    mergeRev less (l ++ f) (r ++ f') = mergeRev less l r ++ (f ++ f') := by
  induction l generalizing r with
  | nil => rw [List.nil_append, h.mergeRev_bad_left f r hf f' hf' hr, mergeRev_nil_left]
  | cons a l ihl =>
    induction r with
    | nil => rw [List.nil_append, h.mergeRev_bad_right _ _ hf', mergeRev_nil_right, List.append_assoc]
    | cons b r ihr =>
      rw [List.cons_append, List.cons_append, mergeRev_cons, mergeRev_cons]
      split
      · rw [← List.cons_append, ihl (b :: r) (fun y hy => hl y (List.mem_cons_of_mem _ hy)) hr]; rfl
      · rw [← List.cons_append, ihr (fun y hy => hr y (List.mem_cons_of_mem _ hy))]; rfl

theorem mergeRev_desc {l r : List α} (hl : ∀ y ∈ l, bad y = false) (hr : ∀ y ∈ r, bad y = false)
    (sl : l.Pairwise (fun a b => key b ≤ key a)) (sr : r.Pairwise (fun a b => key b ≤ key a)) :
    (mergeRev less l r).Pairwise (fun a b => key b ≤ key a) := by
  induction l generalizing r with
  | nil => rw [mergeRev_nil_left]; exact sr
  | cons a l ihl =>
    induction r with
    | nil => rw [mergeRev_nil_right]; exact sl
    | cons b r ihr =>
      have ha := hl a List.mem_cons_self
      have hb := hr b List.mem_cons_self
      obtain ⟨a1, a2⟩ := List.pairwise_cons.1 sl
      obtain ⟨b1, b2⟩ := List.pairwise_cons.1 sr
      rw [mergeRev_cons]
      split
      · rename_i hless
        have hk := (h.keys b a hb ha).1 hless
        refine List.pairwise_cons.2 ⟨?_, ihl (fun y hy => hl y (List.mem_cons_of_mem _ hy)) hr a2 sr⟩
        intro z hz
        rcases List.mem_append.1 ((mergeRev_perm _ _).mem_iff.1 hz) with hz | hz
        · exact a1 z hz
        · rcases List.mem_cons.1 hz with rfl | hz
          · exact hk.le
          · exact (b1 z hz).trans hk.le
      · rename_i hless
        rw [Bool.not_eq_true, h.not_less hb ha] at hless
        refine List.pairwise_cons.2 ⟨?_, ihr (fun y hy => hr y (List.mem_cons_of_mem _ hy)) b2⟩
        intro z hz
        rcases List.mem_append.1 ((mergeRev_perm _ _).mem_iff.1 hz) with hz | hz
        · rcases List.mem_cons.1 hz with rfl | hz
          · exact hless
          · exact (a1 z hz).trans hless
        · exact b1 z hz

theorem mergeRev_stable {l r : List α} (hl : ∀ y ∈ l, bad y = false) (hr : ∀ y ∈ r, bad y = false)
    (sr : r.Pairwise (fun a b => key b ≤ key a)) (k : K) :
    (mergeRev less l r).filter (fun y => !bad y && decide (key y = k))
      = r.filter (fun y => !bad y && decide (key y = k)) ++ l.filter (fun y => !bad y && decide (key y = k)) := by
  induction l generalizing r with
  | nil => rw [mergeRev_nil_left]; simp
  | cons a l ihl =>
    induction r with
    | nil => rw [mergeRev_nil_right]; rfl
    | cons b r ihr =>
      have ha := hl a List.mem_cons_self
      have hb := hr b List.mem_cons_self
      obtain ⟨b1, b2⟩ := List.pairwise_cons.1 sr
      rw [mergeRev_cons]
      split
      · rename_i hless
        have hk := (h.keys b a hb ha).1 hless
        have ih := ihl (r := b :: r) (fun y hy => hl y (List.mem_cons_of_mem _ hy)) hr sr
        rw [List.filter_cons, ih, List.filter_cons (xs := l)]
        by_cases hak : key a = k
        · have hnil : (b :: r).filter (fun y => !bad y && decide (key y = k)) = [] := by
            rw [List.filter_eq_nil_iff]
            intro z hz hzk
            rw [Bool.and_eq_true, decide_eq_true_eq] at hzk
            rw [← hak] at hzk
            rcases List.mem_cons.1 hz with rfl | hz
            · rw [hzk.2] at hk; exact lt_irrefl _ hk
            · have := b1 z hz
              rw [hzk.2] at this
              exact lt_irrefl _ (lt_of_le_of_lt this hk)
          rw [hnil]
          rfl
        · simp [hak]
      · have ih := ihr (fun y hy => hr y (List.mem_cons_of_mem _ hy)) b2
        rw [List.filter_cons, ih, List.filter_cons (xs := r)]
        split <;> rfl

omit h in
theorem filter_bad {f : List α} (hf : ∀ y ∈ f, bad y = true) (k : K) : f.filter (fun y => !bad y && decide (key y = k)) = [] := by
  rw [List.filter_eq_nil_iff]
  intro y hy
  simp [hf y hy]

theorem fwd_sorted {l l' r r' : List α} (hl : SortedBadFirst bad key l l') (hr : SortedBadFirst bad key r r') :
    SortedBadFirst bad key (l ++ r) (mergeFwd less l' r') := by
  obtain ⟨pl, ⟨f1, g1, rfl, b1, c1, s1⟩, st1⟩ := hl
  obtain ⟨pr, ⟨f2, g2, rfl, b2, c2, s2⟩, st2⟩ := hr
  have e : mergeFwd less (f1 ++ g1) (f2 ++ g2) = (f2 ++ f1) ++ mergeFwd less g1 g2 := by
    rw [h.mergeFwd_bad_right _ _ _ b2, h.mergeFwd_bad_left _ _ _ b1 c2, List.append_assoc]
  refine ⟨(mergeFwd_perm _ _).trans (pl.append pr), ⟨f2 ++ f1, mergeFwd less g1 g2, e, ?_, ?_, h.mergeFwd_asc c1 c2 s1 s2⟩, ?_⟩
  · intro y hy
    rcases List.mem_append.1 hy with hy | hy
    · exact b2 y hy
    · exact b1 y hy
  · intro y hy
    rcases List.mem_append.1 ((mergeFwd_perm _ _).mem_iff.1 hy) with hy | hy
    · exact c1 y hy
    · exact c2 y hy
  · intro k
    rw [e, List.filter_append, List.filter_append, List.filter_append, ← st1 k, ← st2 k, List.filter_append, List.filter_append,
      filter_bad b1, filter_bad b2, h.mergeFwd_stable c1 c2 s1 k]
    rfl

theorem bwd_sorted {l l' r r' : List α} (hl : SortedBadFirst bad key l l') (hr : SortedBadFirst bad key r r') :
    SortedBadFirst bad key (l ++ r) (mergeBwd less l' r') := by
  obtain ⟨pl, ⟨f1, g1, rfl, b1, c1, s1⟩, st1⟩ := hl
  obtain ⟨pr, ⟨f2, g2, rfl, b2, c2, s2⟩, st2⟩ := hr
  have b1' : ∀ y ∈ f1.reverse, bad y = true := fun y hy => b1 y (List.mem_reverse.1 hy)
  have b2' : ∀ y ∈ f2.reverse, bad y = true := fun y hy => b2 y (List.mem_reverse.1 hy)
  have c1' : ∀ y ∈ g1.reverse, bad y = false := fun y hy => c1 y (List.mem_reverse.1 hy)
  have c2' : ∀ y ∈ g2.reverse, bad y = false := fun y hy => c2 y (List.mem_reverse.1 hy)
  have e : mergeBwd less (f1 ++ g1) (f2 ++ g2) = (f2 ++ f1) ++ (mergeRev less g1.reverse g2.reverse).reverse := by
    unfold mergeBwd
    rw [List.reverse_append, List.reverse_append, h.mergeRev_split _ _ _ _ c1' c2' b1' b2', List.reverse_append, List.reverse_append,
      List.reverse_reverse, List.reverse_reverse]
  refine ⟨?_, ⟨f2 ++ f1, _, e, ?_, ?_, ?_⟩, ?_⟩
  · unfold mergeBwd
    exact (List.reverse_perm _).trans ((mergeRev_perm _ _).trans
      (((List.reverse_perm _).trans pl).append ((List.reverse_perm _).trans pr)))
  · intro y hy
    rcases List.mem_append.1 hy with hy | hy
    · exact b2 y hy
    · exact b1 y hy
  · intro y hy
    rcases List.mem_append.1 ((mergeRev_perm _ _).mem_iff.1 (List.mem_reverse.1 hy)) with hy | hy
    · exact c1' y hy
    · exact c2' y hy
  · rw [List.pairwise_reverse]
    exact h.mergeRev_desc c1' c2' (List.pairwise_reverse.2 s1) (List.pairwise_reverse.2 s2)
  · intro k
    rw [e, List.filter_append, List.filter_append, List.filter_append, ← st1 k, ← st2 k, List.filter_append, List.filter_append,
      filter_bad b1, filter_bad b2, List.filter_reverse, h.mergeRev_stable c1' c2' (List.pairwise_reverse.2 s2) k,
      List.reverse_append, List.filter_reverse, List.filter_reverse, List.reverse_reverse, List.reverse_reverse]
    rfl

/-- Every derivation of the merge sort sorts. -/
theorem mergeSort_sorted {l s : List α} (hs : MergeSort less l s) : SortedBadFirst bad key l s := by
  induction hs with
  | asc hc => exact h.asc_sorted hc
  | desc hc => exact h.desc_sorted hc
  | insert _ ih => exact h.insertTail_sorted ih
  | fwd _ _ ih1 ih2 => exact h.fwd_sorted ih1 ih2
  | bwd _ _ ih1 ih2 => exact h.bwd_sorted ih1 ih2

/-- Every derivation of the merge sort reverses the bad elements. -/
theorem mergeSort_bad {l s : List α} (hs : MergeSort less l s) : s.filter bad = (l.filter bad).reverse := by
  have sub : ∀ {l s : List α}, SortedBadFirst bad key l s → ∃ f r, s = f ++ r ∧ (∀ y ∈ f, bad y = true) ∧ (∀ y ∈ r, bad y = false) ∧ s.filter bad = f := by
    rintro l s ⟨_, ⟨f, r, e, hf, hr, _⟩, _⟩
    refine ⟨f, r, e, hf, hr, ?_⟩
    rw [e, List.filter_append, List.filter_eq_self.2 hf, List.filter_eq_nil_iff.2 (fun y hy => by rw [hr y hy]; simp), List.append_nil]
  have only : ∀ {f r : List α}, (∀ y ∈ f, bad y = true) → (∀ y ∈ r, bad y = false) → (f ++ r).filter bad = f := by
    intro f r hf hr
    rw [List.filter_append, List.filter_eq_self.2 hf, List.filter_eq_nil_iff.2 (fun y hy => by rw [hr y hy]; simp), List.append_nil]
  induction hs with
  | @asc l hc =>
    obtain ⟨_, ⟨f, r, e, hf, hr, _⟩, _⟩ := h.asc_sorted hc
    rw [e, only hf hr]
    match f, e, hf with
    | [], _, _ => rfl
    | [x], _, _ => rfl
    | x :: y :: f, e, hf =>
      exfalso
      rw [e, List.cons_append, List.cons_append, List.isChain_cons_cons] at hc
      rw [h.left y x (hf y (by simp))] at hc
      cases hc.1
  | @desc l hc => rw [List.filter_reverse]
  | @insert l l' x hd ih =>
    obtain ⟨f, r, rfl, hf, hr, hfil⟩ := sub (h.mergeSort_sorted hd)
    rw [List.filter_append, List.reverse_append, ← ih, hfil]
    cases hx : bad x with
    | true =>
      unfold insertTail
      rw [h.insertRev_bad hx, List.reverse_append, List.reverse_reverse, List.reverse_singleton, List.singleton_append, List.filter_cons_of_pos hx,
        only hf hr, List.filter_cons_of_pos hx]
      rfl
    | false =>
      have hrr : ∀ y ∈ r.reverse, bad y = false := fun y hy => hr y (List.mem_reverse.1 hy)
      unfold insertTail
      rw [List.reverse_append, h.insertRev_good hx _ _ hrr (fun y hy => hf y (List.mem_reverse.1 hy)), List.reverse_append, List.reverse_reverse,
        only hf, List.filter_cons_of_neg (by rw [hx]; simp)]
      · rfl
      · intro y hy
        rcases (mem_insertRev).1 (List.mem_reverse.1 hy) with rfl | hy
        · exact hx
        · exact hrr y hy
  | @fwd l l' r r' h1 h2 ih1 ih2 =>
    obtain ⟨f1, g1, rfl, b1, c1, e1⟩ := sub (h.mergeSort_sorted h1)
    obtain ⟨f2, g2, rfl, b2, c2, e2⟩ := sub (h.mergeSort_sorted h2)
    rw [List.filter_append l r, List.reverse_append, ← ih1, ← ih2, e1, e2, h.mergeFwd_bad_right _ _ _ b2, h.mergeFwd_bad_left _ _ _ b1 c2, ← List.append_assoc,
      only]
    · intro y hy
      rcases List.mem_append.1 hy with hy | hy
      · exact b2 y hy
      · exact b1 y hy
    · intro y hy
      rcases List.mem_append.1 ((mergeFwd_perm _ _).mem_iff.1 hy) with hy | hy
      · exact c1 y hy
      · exact c2 y hy
  | @bwd l l' r r' h1 h2 ih1 ih2 =>
    obtain ⟨f1, g1, rfl, b1, c1, e1⟩ := sub (h.mergeSort_sorted h1)
    obtain ⟨f2, g2, rfl, b2, c2, e2⟩ := sub (h.mergeSort_sorted h2)
    have b1' : ∀ y ∈ f1.reverse, bad y = true := fun y hy => b1 y (List.mem_reverse.1 hy)
    have b2' : ∀ y ∈ f2.reverse, bad y = true := fun y hy => b2 y (List.mem_reverse.1 hy)
    have c1' : ∀ y ∈ g1.reverse, bad y = false := fun y hy => c1 y (List.mem_reverse.1 hy)
    have c2' : ∀ y ∈ g2.reverse, bad y = false := fun y hy => c2 y (List.mem_reverse.1 hy)
    have e : mergeBwd less (f1 ++ g1) (f2 ++ g2) = (f2 ++ f1) ++ (mergeRev less g1.reverse g2.reverse).reverse := by
      unfold mergeBwd
      rw [List.reverse_append, List.reverse_append, h.mergeRev_split _ _ _ _ c1' c2' b1' b2', List.reverse_append, List.reverse_append,
        List.reverse_reverse, List.reverse_reverse]
    rw [List.filter_append l r, List.reverse_append, ← ih1, ← ih2, e1, e2, e, only]
    · intro y hy
      rcases List.mem_append.1 hy with hy | hy
      · exact b2 y hy
      · exact b1 y hy
    · intro y hy
      rcases List.mem_append.1 ((mergeRev_perm _ _).mem_iff.1 (List.mem_reverse.1 hy)) with hy | hy
      · exact c1' y hy
      · exact c2' y hy

end BadLess

/-- A list that is sorted by key is determined by its parts of equal key. -/
theorem sorted_unique {r r' : List α} (h : r.Pairwise (fun a b => key a ≤ key b)) (h' : r'.Pairwise (fun a b => key a ≤ key b))
    (hf : ∀ k, r.filter (fun x => decide (key x = k)) = r'.filter (fun x => decide (key x = k))) : r = r' := by
  induction r generalizing r' with
  | nil =>
    cases r' with
    | nil => rfl
    | cons a t => have := hf (key a); simp at this
  | cons a t ih =>
    cases r' with
    | nil => have := hf (key a); simp at this
    | cons a' t' =>
      have hle : key a ≤ key a' := by
        have : a' ∈ (a :: t).filter (fun x => decide (key x = key a')) := by rw [hf]; simp
        rcases List.mem_cons.1 (List.mem_filter.1 this).1 with e | hm
        · rw [e]
        · exact (List.pairwise_cons.1 h).1 _ hm
      have hge : key a' ≤ key a := by
        have : a ∈ (a' :: t').filter (fun x => decide (key x = key a)) := by rw [← hf]; simp
        rcases List.mem_cons.1 (List.mem_filter.1 this).1 with e | hm
        · rw [e]
        · exact (List.pairwise_cons.1 h').1 _ hm
      have hk : key a = key a' := le_antisymm hle hge
      have h0 := hf (key a)
      rw [List.filter_cons_of_pos (by simp), List.filter_cons_of_pos (by simp [hk])] at h0
      injection h0 with hd _
      subst hd
      rw [ih (List.pairwise_cons.1 h).2 (List.pairwise_cons.1 h').2 fun k => ?_]
      have h1 := hf k
      by_cases hak : key a = k
      · rw [List.filter_cons_of_pos (by simp [hak]), List.filter_cons_of_pos (by simp [hak])] at h1
        injection h1
      · rw [List.filter_cons_of_neg (by simp [hak]), List.filter_cons_of_neg (by simp [hak])] at h1
        exact h1

/-- What is sorted with the bad elements in a fixed order is determined. -/
theorem sortedBadFirst_unique {l s s' : List α} (h : SortedBadFirst bad key l s) (h' : SortedBadFirst bad key l s')
    (hb : s.filter bad = s'.filter bad) : s = s' := by
  obtain ⟨_, ⟨f, r, rfl, hf, hr, hs⟩, st⟩ := h
  obtain ⟨_, ⟨f', r', rfl, hf', hr', hs'⟩, st'⟩ := h'
  have only : ∀ {f r : List α}, (∀ y ∈ f, bad y = true) → (∀ y ∈ r, bad y = false) → (f ++ r).filter bad = f := by
    intro f r hf hr
    rw [List.filter_append, List.filter_eq_self.2 hf, List.filter_eq_nil_iff.2 (fun y hy => by rw [hr y hy]; simp), List.append_nil]
  have good : ∀ {f r : List α} (k : K), (∀ y ∈ f, bad y = true) → (∀ y ∈ r, bad y = false) →
      (f ++ r).filter (fun x => !bad x && decide (key x = k)) = r.filter (fun x => decide (key x = k)) := by
    intro f r k hf hr
    rw [List.filter_append, List.filter_eq_nil_iff.2 (fun y hy => by simp [hf y hy]), List.nil_append]
    exact List.filter_congr fun y hy => by simp [hr y hy]
  rw [only hf hr, only hf' hr'] at hb
  rw [hb, sorted_unique hs hs' fun k => by rw [← good k hf hr, ← good k hf' hr', st, st']]

/-- Selecting from a sorted list is sorting what is selected. -/
theorem sortedBadFirst_filter {l s : List α} (h : SortedBadFirst bad key l s) (q : α → Bool) : SortedBadFirst bad key (l.filter q) (s.filter q) := by
  obtain ⟨hp, ⟨f, r, e, hf, hr, hs⟩, st⟩ := h
  refine ⟨hp.filter q, ⟨f.filter q, r.filter q, by rw [e, List.filter_append], fun x hx => hf x (List.mem_filter.1 hx).1,
    fun x hx => hr x (List.mem_filter.1 hx).1, hs.filter q⟩, fun k => ?_⟩
  have comm : ∀ m : List α, (m.filter q).filter (fun x => !bad x && decide (key x = k)) = (m.filter (fun x => !bad x && decide (key x = k))).filter q := by
    intro m
    rw [List.filter_filter, List.filter_filter]
    exact List.filter_congr fun x _ => Bool.and_comm ..
  rw [comm, comm, st]

/-! ### The concrete strategy is a derivation -/

theorem takeRun_append (p : α → α → Bool) (x : α) (l : List α) : (takeRun p x l).1 ++ (takeRun p x l).2 = l := by
  induction l generalizing x with
  | nil => rfl
  | cons y l ih =>
    rw [takeRun]
    split
    · rw [List.cons_append, ih y]
    · rfl

theorem takeRun_chain (p : α → α → Bool) (x : α) (l : List α) : (x :: (takeRun p x l).1).IsChain (fun a b => p b a = true) := by
  induction l generalizing x with
  | nil => exact .singleton _
  | cons y l ih =>
    rw [takeRun]
    split
    · rename_i h
      exact List.isChain_cons_cons.2 ⟨h, ih y⟩
    · exact .singleton _

theorem findStreak_spec (less : α → α → Bool) (x : α) (l : List α) :
    ∃ a, a ≠ [] ∧ a ++ (findStreak less (x :: l)).2 = x :: l ∧ MergeSort less a (findStreak less (x :: l)).1 := by
  cases l with
  | nil => exact ⟨[x], by simp, rfl, .asc (.singleton _)⟩
  | cons y l =>
    rw [findStreak]
    split
    · refine ⟨x :: (takeRun less x (y :: l)).1, by simp, ?_, .desc (takeRun_chain _ _ _)⟩
      rw [List.cons_append, takeRun_append]
    · refine ⟨x :: (takeRun (fun a b => !less a b) x (y :: l)).1, by simp, ?_, .asc ?_⟩
      · rw [List.cons_append, takeRun_append]
      · exact (takeRun_chain (fun a b => !less a b) x (y :: l)).imp fun a b h => by simpa using h

theorem insertAll_derivation {less : α → α → Bool} {l l' : List α} (h : MergeSort less l l') (m : List α) :
    MergeSort less (l ++ m) (insertAll less l' m) := by
  induction m generalizing l l' with
  | nil => rw [List.append_nil]; exact h
  | cons x m ih =>
    have := ih (.insert (x := x) h)
    rw [List.append_assoc] at this
    exact this

theorem provideBatch_spec {less : α → α → Bool} {a run rest : List α} (h : MergeSort less a run) :
    ∃ a', a'.length ≥ a.length ∧ a' ++ (provideBatch less run rest).2 = a ++ rest ∧ MergeSort less a' (provideBatch less run rest).1 := by
  unfold provideBatch
  split
  · refine ⟨a ++ rest.take (10 - run.length), by simp, ?_, insertAll_derivation h _⟩
    rw [List.append_assoc, List.take_append_drop]
  · exact ⟨a, by simp, rfl, h⟩

/-- The stack holds sorted adjacent parts of the prefix `p`. -/
inductive StackOf (less : α → α → Bool) : List α → List (List α) → Prop where
  | nil : StackOf less [] []
  | cons {p a r rs} : StackOf less p rs → MergeSort less a r → StackOf less (p ++ a) (r :: rs)

theorem mergeRuns_derivation {less : α → α → Bool} {l l' r r' : List α} (h1 : MergeSort less l l') (h2 : MergeSort less r r') :
    MergeSort less (l ++ r) (mergeRuns less l' r') := by
  unfold mergeRuns
  split
  · exact .fwd h1 h2
  · exact .bwd h1 h2

theorem collapseLoop_stack {less : α → α → Bool} {done : Bool} {n : Nat} {p : List α} {stack : List (List α)} (h : StackOf less p stack) :
    StackOf less p (collapseLoop less done n stack) := by
  induction n generalizing stack with
  | zero => exact h
  | succ n ih =>
    unfold collapseLoop
    split
    · apply ih
      cases h with
      | cons h h1 =>
        cases h with
        | cons h h2 =>
          rw [List.append_assoc]
          exact .cons h (mergeRuns_derivation h2 h1)
    · apply ih
      cases h with
      | cons h h1 =>
        cases h with
        | cons h h2 =>
          cases h with
          | cons h h3 =>
            refine .cons ?_ h1
            rw [List.append_assoc]
            exact .cons h (mergeRuns_derivation h3 h2)
    · exact h

theorem collapseLoop_done {less : α → α → Bool} {n : Nat} {stack : List (List α)} (h : stack.length ≤ n + 1) :
    (collapseLoop less true n stack).length ≤ 1 := by
  induction n generalizing stack with
  | zero => exact h
  | succ n ih =>
    unfold collapseLoop
    split
    · apply ih; simp only [List.length_cons] at h ⊢; omega
    · apply ih; simp only [List.length_cons] at h ⊢; omega
    · rename_i stack _ _ h1 h2
      match stack, h1, h2 with
      | [], _, _ => simp
      | [r], _, _ => simp
      | [r1, r2], h1, _ => exact absurd rfl (h1 r1 r2 [] (by simp [collapseAt]))
      | r1 :: r2 :: r3 :: rs, h1, h2 =>
        exfalso
        cases hc : collapseAt true (r1 :: r2 :: r3 :: rs) with
        | none => simp [collapseAt] at hc
        | some v =>
          cases v with
          | false => exact h1 r1 r2 (r3 :: rs) hc rfl
          | true => exact h2 r1 r2 r3 rs hc rfl

theorem sortLoop_spec {less : α → α → Bool} {n : Nat} {p rest : List α} {stack : List (List α)} (h : StackOf less p stack)
    (hn : rest.length ≤ n) (hone : rest = [] → stack.length ≤ 1) :
    StackOf less (p ++ rest) (sortLoop less n stack rest) ∧ (sortLoop less n stack rest).length ≤ 1 := by
  induction n generalizing p rest stack with
  | zero =>
    cases rest with
    | nil => rw [List.append_nil]; exact ⟨h, hone rfl⟩
    | cons x rest => simp at hn
  | succ n ih =>
    cases rest with
    | nil => rw [List.append_nil]; exact ⟨h, hone rfl⟩
    | cons x rest =>
      obtain ⟨a, ha, e1, d1⟩ := findStreak_spec less x rest
      obtain ⟨a', hlen, e2, d2⟩ := provideBatch_spec (rest := (findStreak less (x :: rest)).2) d1
      rw [e1] at e2
      rw [sortLoop]
      generalize provideBatch less (findStreak less (x :: rest)).1 (findStreak less (x :: rest)).2 = bt at e2 d2 ⊢
      have hst : StackOf less (p ++ a') (bt.1 :: stack) := .cons h d2
      have := ih (p := p ++ a') (rest := bt.2)
        (stack := collapseLoop less bt.2.isEmpty (stack.length + 1) (bt.1 :: stack)) (collapseLoop_stack hst) ?_ ?_
      · rw [List.append_assoc, e2] at this
        exact this
      · have hl : a'.length + bt.2.length = (x :: rest).length := by rw [← e2, List.length_append]
        have ha1 : 0 < a.length := List.length_pos_of_ne_nil ha
        omega
      · intro he
        rw [he]
        exact collapseLoop_done (by simp)

/-- The concrete algorithm is one of the derivations. -/
theorem stableSort_derivation (less : α → α → Bool) (l : List α) : MergeSort less l (stableSort less l) := by
  unfold stableSort
  split
  · cases l with
    | nil => exact .asc .nil
    | cons x l => exact insertAll_derivation (l := [x]) (.asc (.singleton _)) l
  · obtain ⟨h1, h2⟩ := sortLoop_spec (less := less) (n := l.length) (p := []) (rest := l) (stack := []) .nil (Nat.le_refl _) (by simp)
    rw [List.nil_append] at h1
    generalize sortLoop less l.length [] l = st at h1 h2
    cases h1 with
    | nil => exact .asc .nil
    | @cons p a r rs h hd =>
      cases h with
      | nil => exact hd
      | cons => simp at h2

end

/-! ### C37 -/

namespace Spec

/-- The entry is an error. -/
def isFailed (d : ExtrinsicDiff) : Bool :=
  match d.change with
  | .failed _ => true
  | _ => false

/-- Sort key of an entry that is not an error: its kind (Unchanged, Added, Removed, Changed) and the rank of its percentage. -/
def sortKey (d : ExtrinsicDiff) : ℕ ×ₗ ℤ :=
  match d.change with
  | .failed _ => toLex (0, 0)
  | .warning c _ | .changed c =>
    toLex ((match c.change with | .unchanged => 0 | .added => 1 | .removed => 2 | .changed => 3), rank c.percent)

end Spec

theorem termChange_cmp_lt {a c : TermChange} : a.cmp c = .lt ↔
    toLex (a.change.idx, rank a.percent) < toLex (c.change.idx, rank c.percent) := by
  unfold TermChange.cmp
  rw [Ordering.then_eq_lt, Prod.Lex.toLex_lt_toLex, compare_lt_iff_lt, compare_eq_iff_eq]
  have : ∀ x y : ℤ, compare x y = .lt ↔ x < y := fun x y => compare_lt_iff_lt
  rw [this]
  rfl

theorem sortKey_warning {n f m : Str} {c : TermChange} : sortKey ⟨n, f, .warning c m⟩ = toLex (c.change.idx, rank c.percent) := by
  unfold sortKey
  cases hc : c.change <;> simp [hc, RelativeChange.idx]

theorem sortKey_changed {n f : Str} {c : TermChange} : sortKey ⟨n, f, .changed c⟩ = toLex (c.change.idx, rank c.percent) := by
  unfold sortKey
  cases hc : c.change <;> simp [hc, RelativeChange.idx]

theorem diffLess_spec : BadLess isFailed sortKey diffLess := by
  refine ⟨?_, ?_, ?_⟩
  · rintro ⟨n, f, c⟩ b hb
    cases c <;> simp [isFailed] at hb
    rfl
  · rintro ⟨n, f, c⟩ ⟨n', f', c'⟩ ha hb
    cases c' <;> simp [isFailed] at hb
    cases c <;> simp [isFailed] at ha <;> rfl
  · rintro ⟨n, f, c⟩ ⟨n', f', c'⟩ ha hb
    unfold diffLess
    cases c <;> cases c' <;> simp only [isFailed, Bool.true_eq_false] at ha hb <;>
      simp only [TermDiff.cmp, sortKey_warning, sortKey_changed, beq_iff_eq, termChange_cmp_lt]

/-- C37, for every way the stable merge sort can proceed: errors first, then ascending by (kind, percentage to 0.001), ties in the order of
the input; nothing lost, nothing added. -/
theorem C37_any_merge_sort (diff s : List ExtrinsicDiff) (h : MergeSort diffLess diff s) :
    SortedBadFirst isFailed sortKey diff s := diffLess_spec.mergeSort_sorted h

/-- C37 for the sort of Rust 1.80.0. -/
theorem C37_sort_changes (diff : List ExtrinsicDiff) : SortedBadFirst isFailed sortKey diff (sortChanges diff) :=
  C37_any_merge_sort _ _ (stableSort_derivation _ _)

/-- C37: the errors come out in the reverse of their input order, for every way the merge sort can proceed. -/
theorem C37_errors_reversed (diff s : List ExtrinsicDiff) (h : MergeSort diffLess diff s) : s.filter isFailed = (diff.filter isFailed).reverse :=
  diffLess_spec.mergeSort_bad h

/-- C37: although the comparison function is not a valid order, the result does not depend on how the merge sort proceeds. -/
theorem C37_determined (diff s s' : List ExtrinsicDiff) (h : MergeSort diffLess diff s) (h' : MergeSort diffLess diff s') : s = s' :=
  sortedBadFirst_unique (C37_any_merge_sort diff s h) (C37_any_merge_sort diff s' h')
    ((C37_errors_reversed diff s h).trans (C37_errors_reversed diff s' h').symm)

/-- C37: sorting a part of a report is taking that part of the sorted report. -/
theorem C37_part (diff : List ExtrinsicDiff) (q : ExtrinsicDiff → Bool) : sortChanges (diff.filter q) = (sortChanges diff).filter q := by
  refine sortedBadFirst_unique (C37_sort_changes _) (sortedBadFirst_filter (C37_sort_changes diff) q) ?_
  have comm : ∀ l : List ExtrinsicDiff, (l.filter q).filter isFailed = (l.filter isFailed).filter q := by
    intro l
    rw [List.filter_filter, List.filter_filter]
    exact List.filter_congr fun x _ => Bool.and_comm ..
  rw [comm, C37_errors_reversed diff (sortChanges diff) (stableSort_derivation _ _),
    C37_errors_reversed _ (sortChanges (diff.filter q)) (stableSort_derivation _ _), comm, List.filter_reverse]

/-- C37: the last entry of a report that is not all errors is one of the worst: no entry has a larger key. -/
theorem C37_worst_last (diff s : List ExtrinsicDiff) (h : MergeSort diffLess diff s) (d : ExtrinsicDiff) (hd : d ∈ diff)
    (hg : isFailed d = false) : ∃ w, s.getLast? = some w ∧ isFailed w = false ∧ sortKey d ≤ sortKey w := by
  obtain ⟨hp, ⟨f, r, rfl, hf, hr, hs⟩, _⟩ := C37_any_merge_sort diff s h
  have hdr : d ∈ r := by
    rcases List.mem_append.1 (hp.mem_iff.2 hd) with h | h
    · rw [hf d h] at hg; cases hg
    · exact h
  have hne : r ≠ [] := List.ne_nil_of_mem hdr
  refine ⟨r.getLast hne, ?_, hr _ (List.getLast_mem hne), ?_⟩
  · rw [List.getLast?_append_of_ne_nil _ hne, List.getLast?_eq_some_getLast hne]
  · rcases List.mem_iff_append.1 hdr with ⟨l1, l2, e⟩
    subst e
    cases l2 with
    | nil => simp
    | cons y l2 =>
      rw [List.pairwise_append] at hs
      have := (List.pairwise_cons.1 hs.2.1).1
      rw [List.getLast_append_of_ne_nil _ (by simp), List.getLast_cons (by simp)]
      exact this _ (List.getLast_mem _)

/-- A report entry for the examples, identified by one letter. -/
def exEntry (n : Char) (k : RelativeChange) (pct : F64) : ExtrinsicDiff := ⟨[n], [], .changed ⟨none, none, none, none, [], pct, k, .base⟩⟩

def exError (n : Char) : ExtrinsicDiff := ⟨[n], [], .failed (str% "missing component")⟩

def exReport : List ExtrinsicDiff :=
  [exEntry 'a' .changed (.fin 5), exError 'b', exEntry 'c' .changed (.fin (-3)), exEntry 'd' .unchanged (.fin 0), exEntry 'e' .added (.fin 100),
   exError 'f', exEntry 'g' .changed (.fin 5), exEntry 'h' .removed (.fin (-100)), exEntry 'i' .unchanged (.fin 0)]

-- The errors b and f are swapped (the comparison is no order on them); a stays before g and d before i.
example : (sortChanges exReport).flatMap (·.name) = (str% "fbdiehcag") := by decide +kernel

-- 45 entries: the TimSort branch.
example : (sortChanges (exReport ++ exReport ++ exReport ++ exReport ++ exReport)).flatMap (·.name)
    = (str% "fbfbfbfbfb") ++ (str% "dididididi") ++ (str% "eeeee") ++ (str% "hhhhh") ++ (str% "ccccc") ++ (str% "agagagagag") := by decide +kernel

/-- C37: the order of errors among themselves is not stable. -/
theorem C37_errors_not_stable : ∃ d e : ExtrinsicDiff, isFailed d = true ∧ isFailed e = true ∧ d ≠ e ∧
    sortChanges [d, e] = [e, d] := ⟨exError 'b', exError 'f', by decide +kernel⟩

end Swc
