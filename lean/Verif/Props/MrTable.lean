/-
C117: in what order the merge requests are shown.
-/
import Verif.Model.MrTable
import Verif.Spec.Calendar
import Verif.Spec.ResultPage
import Verif.Props.MergeRequests

namespace Swc

open Spec

/-! ### Sorted by the last cell -/

theorem fold_sorted {α : Type} (le : α → α → Bool) (trans : ∀ a b c, le a b = true → le b c = true → le a c = true) (total : ∀ a b, le a b = true ∨ le b a = true)
    (l : List α) : StablySorted (fun a b => le a b = true) l (l.foldl (fun t r => (t ++ [r]).insertionSort fun a b => le a b = true) []) := by
  have : IsTrans α (fun a b => le a b = true) := ⟨trans⟩
  have : Std.Total (fun a b : α => le a b = true) := ⟨total⟩
  induction l using List.reverseRecOn with
  | nil => exact ⟨.refl _, .nil, fun _ _ _ _ h => h⟩
  | append_singleton l x ih =>
    rw [List.foldl_append, List.foldl_cons, List.foldl_nil]
    refine ⟨(List.perm_insertionSort _ _).trans (ih.perm.append_right _), List.pairwise_insertionSort _ _, fun a b hab hba hs => ?_⟩
    refine List.pair_sublist_insertionSort hab ?_
    rcases List.sublist_append_iff.1 hs with ⟨l1, l2, e, h1, h2⟩
    match l1, l2, e with
    | [], l2, e =>
      have e' : [a, b] = l2 := e
      have := h2.length_le
      rw [← e'] at this
      exact absurd this (by simp)
    | [p], l2, e =>
      have hp : p = a ∧ l2 = [b] := by simpa [eq_comm] using e
      obtain ⟨rfl, rfl⟩ := hp
      have hb : b = x := by simpa using h2
      subst hb
      have hm := ih.perm.mem_iff.2 (List.singleton_sublist.1 h1)
      exact (List.singleton_sublist.2 hm).append (.refl [b])
    | [p, q], l2, e =>
      have hp : p = a ∧ q = b ∧ l2 = [] := by simpa [eq_comm] using e
      obtain ⟨rfl, rfl, rfl⟩ := hp
      exact (ih.stable _ _ hab hba h1).trans (List.sublist_append_left _ _)
    | p :: q :: r :: l1, l2, e => simp at e

theorem snd_zip_prefix {α β : Type} (a : List α) (b : List β) : (a.zip b).map Prod.snd <+: b := by
  induction a generalizing b with
  | nil => exact List.nil_prefix
  | cons x a ih =>
    cases b with
    | nil => exact List.nil_prefix
    | cons y b =>
      rw [List.zip_cons_cons, List.map_cons, List.cons_prefix_cons]
      exact ⟨rfl, ih b⟩

theorem mrLoop_length (owner : Str) (l : List MergeRequest) : (mrLoop owner l).1.length ≤ l.length := by
  induction l with
  | nil => exact Nat.le_refl _
  | cons m l ih =>
    rw [mrLoop]
    cases m.headOwner with
    | none => simp
    | some o =>
      simp only
      split
      · simpa using ih
      · split <;> simpa using ih

theorem mrPage_rows (owner : Str) (data : List MergeRequest) : (mrPage owner data).rows = (mrLoop owner (newestFirst data)).1 := by
  unfold mrPage
  cases h : mrLoop owner (newestFirst data) with
  | mk rows n => cases n <;> rfl

/-- C117: the table shows the rows that were added, sorted by the text of the last cell, downwards; rows with equal texts remain newest first. -/
theorem C117_shown {less : Str → Str → Bool} (asymm : ∀ a b, less a b = true → less b a = false)
    (trans : ∀ a b c, less a b = false → less b c = false → less a c = false) (day : Int → Str) (owner : Str) (data : List MergeRequest) :
    StablySorted (fun a b => less (day a.2.updated) (day b.2.updated) = false) (mrAdded owner data) (mrTable less day owner data) ∧
    (mrAdded owner data).map Prod.fst = (mrPage owner data).rows ∧ (mrAdded owner data).map Prod.snd <+: newestFirst data ∧
    ((∀ m ∈ data, m.headOwner ≠ none) → (mrAdded owner data).map Prod.snd = newestFirst data) := by
  have hl := mrLoop_length owner (newestFirst data)
  refine ⟨?_, ?_, ?_, fun h => ?_⟩
  · have h := fold_sorted (mrMayPrecede less day) (fun a b c h1 h2 => by
        simp only [mrMayPrecede, Bool.not_eq_true'] at *
        exact trans _ _ _ h1 h2) (fun a b => by
        simp only [mrMayPrecede, Bool.not_eq_true']
        cases h : less (day a.2.updated) (day b.2.updated) with
        | false => exact .inl rfl
        | true => exact .inr (asymm _ _ h)) (mrAdded owner data)
    have e : ∀ a b : MrRow × MergeRequest, mrMayPrecede less day a b = true ↔ less (day a.2.updated) (day b.2.updated) = false := fun a b => by
      simp only [mrMayPrecede, Bool.not_eq_true']
    exact ⟨h.perm, h.sorted.imp fun hab => (e _ _).1 hab, fun a b h1 h2 => h.stable a b ((e _ _).2 h1) ((e _ _).2 h2)⟩
  · rw [mrPage_rows]
    exact List.map_fst_zip hl
  · exact snd_zip_prefix _ _
  · have hn := newestFirst_spec data
    have hf := (mrLoop_spec owner (newestFirst data) fun m hm => h m (hn.perm.mem_iff.1 hm)).1.length_eq
    exact List.map_snd_zip (by omega)

/-! ### Newest first? -/

theorem mrAdded_sorted (owner : Str) (data : List MergeRequest) : (mrAdded owner data).Pairwise fun a b => b.2.updated ≤ a.2.updated := by
  have hp : (mrAdded owner data).map Prod.snd <+: newestFirst data := snd_zip_prefix _ _
  exact List.pairwise_map.1 ((newestFirst_spec data).sorted.sublist hp.sublist)

theorem fold_id {α : Type} (le : α → α → Bool) {l : List α} (h : l.Pairwise fun a b => le a b = true) :
    l.foldl (fun t r => (t ++ [r]).insertionSort fun a b => le a b = true) [] = l := by
  induction l using List.reverseRecOn with
  | nil => rfl
  | append_singleton l x ih =>
    rw [List.foldl_append, List.foldl_cons, List.foldl_nil, ih (h.sublist (List.sublist_append_left _ _))]
    exact h.insertionSort_eq

/-- C117: if later days have larger texts then the table shows the rows in the order in which they were added, newest first. -/
theorem C117_newest {less : Str → Str → Bool} {day : Int → Str} (h : ∀ t t', t ≤ t' → less (day t') (day t) = false) (owner : Str) (data : List MergeRequest) :
    mrTable less day owner data = mrAdded owner data ∧ (mrTable less day owner data).Pairwise fun a b => b.2.updated ≤ a.2.updated := by
  have e : mrTable less day owner data = mrAdded owner data :=
    fold_id (mrMayPrecede less day) ((mrAdded_sorted owner data).imp fun hab => by
      simp only [mrMayPrecede, Bool.not_eq_true']
      exact h _ _ hab)
  exact ⟨e, by rw [e]; exact mrAdded_sorted owner data⟩

/-- C117: otherwise it does not: two merge requests, the newer one of which has the smaller text, are shown with the older one above. -/
theorem C117_oldest {less : Str → Str → Bool} {day : Int → Str} {owner : Str} {a b : MergeRequest} (ha : a.headOwner = some owner) (hb : b.headOwner = some owner)
    (hab : a.updated < b.updated) (h : less (day b.updated) (day a.updated) = true) :
    ∀ data, data = [a, b] ∨ data = [b, a] → (mrTable less day owner data).map Prod.snd = [a, b] := by
  intro data hd
  have hn : newestFirst data = [b, a] := by
    rcases hd with rfl | rfl
    · simp only [newestFirst, insertMr]
      rw [if_neg (by omega)]
    · simp only [newestFirst, insertMr]
      rw [if_pos (by omega)]
  have hl : ∃ r s, (mrLoop owner [b, a]).1 = [r, s] := by
    simp only [mrLoop, ha, hb, ne_eq, not_true, if_false]
    split <;> split <;> exact ⟨_, _, rfl⟩
  obtain ⟨r, s, hl⟩ := hl
  unfold mrTable mrAdded
  rw [hn, hl]
  simp [mrAdd, mrMayPrecede, h]

/-- C117: the merge requests of every repository are shown newest first exactly if later days never have smaller texts. -/
theorem C117_exactly (less : Str → Str → Bool) (day : Int → Str) (hr : ∀ s, less s s = false) :
    (∀ owner data, (mrTable less day owner data).Pairwise fun a b => b.2.updated ≤ a.2.updated) ↔ ∀ t t', t ≤ t' → less (day t') (day t) = false := by
  refine ⟨fun h t t' ht => ?_, fun h owner data => (C117_newest h owner data).2⟩
  rcases Int.lt_or_eq_of_le ht with hlt | rfl
  · by_contra hc
    have hc' : less (day t') (day t) = true := by simpa using hc
    have h1 := C117_oldest (owner := []) (a := ⟨[], [], [], [], some [], t⟩) (b := ⟨[], [], [], [], some [], t'⟩) rfl rfl hlt hc' _ (.inl rfl)
    have h2 := (List.pairwise_map (f := Prod.snd) (R := fun a b : MergeRequest => b.updated ≤ a.updated)).2
      (h [] [⟨[], [], [], [], some [], t⟩, ⟨[], [], [], [], some [], t'⟩])
    rw [h1] at h2
    have := (List.pairwise_cons.1 h2).1 _ (List.mem_singleton_self _)
    simp only at this
    omega
  · exact hr _

/-! ### The order of texts -/

theorem unitsLess_asymm : ∀ a b : List Nat, unitsLess a b = true → unitsLess b a = false
  | _, [], h => by simp [unitsLess] at h
  | [], _ :: _, _ => by simp [unitsLess]
  | a :: l, b :: r, h => by
    simp only [unitsLess, Bool.or_eq_true, decide_eq_true_eq, Bool.and_eq_true, beq_iff_eq] at h
    simp only [unitsLess, Bool.or_eq_false_iff, decide_eq_false_iff_not, Bool.and_eq_false_iff, beq_eq_false_iff_ne]
    rcases h with h | ⟨rfl, h⟩
    · exact ⟨by omega, .inl (by omega)⟩
    · exact ⟨by omega, .inr (unitsLess_asymm _ _ h)⟩

theorem unitsLess_trans : ∀ a b c : List Nat, unitsLess a b = false → unitsLess b c = false → unitsLess a c = false
  | _, _, [], _, _ => by simp [unitsLess]
  | _, [], _ :: _, _, h => by simp [unitsLess] at h
  | [], _ :: _, _ :: _, h, _ => by simp [unitsLess] at h
  | a :: l, b :: r, c :: s, h1, h2 => by
    simp only [unitsLess, Bool.or_eq_false_iff, decide_eq_false_iff_not, Bool.and_eq_false_iff, beq_eq_false_iff_ne] at *
    refine ⟨by omega, ?_⟩
    by_cases hac : a = c
    · right
      have hab : a = b := by omega
      have hbc : b = c := by omega
      exact unitsLess_trans l r s (h1.2.resolve_left (by omega)) (h2.2.resolve_left (by omega))
    · exact .inl hac

/-- C117: what is assumed of the order of texts is the case for the one of columns of texts. -/
theorem C117_texts : (∀ a b, jsLess a b = true → jsLess b a = false) ∧ (∀ a b c, jsLess a b = false → jsLess b c = false → jsLess a c = false) ∧
    ∀ a, jsLess a a = false := by
  refine ⟨fun a b => unitsLess_asymm _ _, fun a b c => unitsLess_trans _ _ _, fun a => ?_⟩
  cases h : jsLess a a with
  | false => rfl
  | true => rw [← h, jsLess, unitsLess_asymm _ _ h]

/-! ### Dates in the United States -/

/-- The number of days of `k` years from the year `y`. -/
def daysOf (y : Nat) : Nat → Nat
  | 0 => 0
  | k + 1 => (monthLengths y).sum + daysOf (y + 1) k

theorem yearLength_pos (y : Nat) : 0 < (monthLengths y).sum := by
  unfold monthLengths
  split <;> decide

theorem le_daysOf (y k : Nat) : k ≤ daysOf y k := by
  induction k generalizing y with
  | zero => exact Nat.zero_le _
  | succ k ih =>
    have := ih (y + 1)
    have := yearLength_pos y
    rw [daysOf]
    omega

theorem dateFrom_year (k f y n : Nat) (hn : n < (monthLengths (y + k)).sum) :
    dateFrom (f + k) y (daysOf y k + n) = (y + k, monthDay (monthLengths (y + k)) n) := by
  induction k generalizing y with
  | zero =>
    simp only [daysOf, Nat.add_zero, Nat.zero_add] at *
    cases f with
    | zero => rfl
    | succ f => rw [dateFrom, if_pos hn]
  | succ k ih =>
    have e : y + (k + 1) = y + 1 + k := by omega
    rw [e] at hn ⊢
    rw [← ih (y + 1) hn, ← Nat.add_assoc, dateFrom, daysOf, if_neg (by omega), Nat.add_assoc, Nat.add_sub_cancel_left]

/-- Every day of every year since 1970 has its times. -/
theorem dateOf_year (k n : Nat) (hn : n < (monthLengths (1970 + k)).sum) (ms : Nat) (hms : ms < 86400000) :
    dateOf (((daysOf 1970 k + n) * 86400000 + ms : Nat) : Int) = (1970 + k, monthDay (monthLengths (1970 + k)) n) := by
  have e : ((((daysOf 1970 k + n) * 86400000 + ms : Nat) : Int) / 86400000).toNat = daysOf 1970 k + n := by omega
  have hk := le_daysOf 1970 k
  unfold dateOf
  rw [e, ← dateFrom_year k (daysOf 1970 k + n - k) 1970 n hn]
  congr 1
  omega

/-- C117 (finding): with dates as in the United States, in every year a merge request that was last changed at any time on the 30th of September is shown above one
that was changed on the next day. -/
theorem C117_american (k ms ms' : Nat) (h : ms < 86400000) (h' : ms' < 86400000) :
    ∃ t t' : Int, t < t' ∧ t' - t < 2 * 86400000 ∧ american t = str% "9/30/" ++ natToStr (1970 + k) ∧ american t' = str% "10/1/" ++ natToStr (1970 + k) ∧
      t % 86400000 = ms ∧ t' % 86400000 = ms' ∧
      ∀ (owner : Str) (a b : MergeRequest), a.headOwner = some owner → b.headOwner = some owner → a.updated = t → b.updated = t' →
        ∀ data, data = [a, b] ∨ data = [b, a] → (mrTable jsLess american owner data).map Prod.snd = [a, b] := by
  obtain ⟨n, hn, h1, h2⟩ : ∃ n, n + 1 < (monthLengths (1970 + k)).sum ∧ monthDay (monthLengths (1970 + k)) n = (9, 30) ∧
      monthDay (monthLengths (1970 + k)) (n + 1) = (10, 1) := by
    unfold monthLengths
    split
    · exact ⟨273, by decide, by decide, by decide⟩
    · exact ⟨272, by decide, by decide, by decide⟩
  have d1 := dateOf_year k n (by omega) ms h
  have d2 := dateOf_year k (n + 1) hn ms' h'
  rw [h1] at d1
  rw [h2] at d2
  have e1 : american (((daysOf 1970 k + n) * 86400000 + ms : Nat) : Int) = str% "9/30/" ++ natToStr (1970 + k) := by
    unfold american
    rw [d1]
    simp only [show natToStr 9 = str% "9" by decide +kernel, show natToStr 30 = str% "30" by decide +kernel]
    simp
  have e2 : american (((daysOf 1970 k + (n + 1)) * 86400000 + ms' : Nat) : Int) = str% "10/1/" ++ natToStr (1970 + k) := by
    unfold american
    rw [d2]
    simp only [show natToStr 10 = str% "10" by decide +kernel, show natToStr 1 = str% "1" by decide +kernel]
    simp
  refine ⟨_, _, ?_, ?_, e1, e2, ?_, ?_, fun owner a b ha hb ea eb data hd => C117_oldest ha hb ?_ ?_ data hd⟩
  · omega
  · omega
  · omega
  · omega
  · rw [ea, eb]; omega
  · rw [ea, eb, e1, e2]
    rfl

/-- C117: so the merge requests are not shown newest first there. -/
theorem C117_not_newest : ¬ ∀ owner data, (mrTable jsLess american owner data).Pairwise fun a b => b.2.updated ≤ a.2.updated := by
  intro h
  obtain ⟨t, t', hlt, -, h1, h2, -⟩ := C117_american 54 0 0 (by decide) (by decide)
  have := (C117_exactly jsLess american C117_texts.2.2).1 h t t' (Int.le_of_lt hlt)
  rw [h1, h2] at this
  exact absurd this (by decide +kernel)

/-! ### Examples -/

/-- The 30th of September and the 1st of October 2024, and the 17th of November 2026. -/
example : american 1727654400000 = str% "9/30/2024" ∧ american 1727740800000 = str% "10/1/2024" ∧ american 1794873600000 = str% "11/17/2026" := by decide +kernel

/-- The 29th of February. -/
example : american 951782400000 = str% "2/29/2000" ∧ american 951868800000 = str% "3/1/2000" := by decide +kernel

/-- Three merge requests of one repository, changed in August, September and October 2024. -/
def exThree : List MergeRequest :=
  [⟨str% "a", str% "alice", str% "a", str% "master", some (str% "paritytech"), 1724976000000⟩,
    ⟨str% "b", str% "bob", str% "b", str% "master", some (str% "paritytech"), 1727654400000⟩,
    ⟨str% "c", str% "carol", str% "c", str% "master", some (str% "paritytech"), 1727740800000⟩]

/-- They are listed newest first and shown in another order. -/
example : ((mrPage (str% "paritytech") exThree).rows.map (·.title)) = [str% "c", str% "b", str% "a"] ∧
    (mrTable jsLess american (str% "paritytech") exThree).map (fun r => (r.1.title, american r.2.updated)) =
      [(str% "b", str% "9/30/2024"), (str% "a", str% "8/30/2024"), (str% "c", str% "10/1/2024")] := by decide +kernel

/-- The hypotheses of `C117_shown` hold for the order of texts. -/
example (data : List MergeRequest) : StablySorted (fun a b => jsLess (american a.2.updated) (american b.2.updated) = false) (mrAdded (str% "paritytech") data)
    (mrTable jsLess american (str% "paritytech") data) := (C117_shown C117_texts.1 C117_texts.2.1 american _ data).1

/-- Where dates begin with the year, and are sorted by date, the order is right (hypothesis of `C117_newest`; the texts are the numbers of the days). -/
example (owner : Str) (data : List MergeRequest) :
    (mrTable (fun a b => decide (a.length < b.length)) (fun t => List.replicate (t / 86400000).toNat 'x') owner data).Pairwise
      fun a b => b.2.updated ≤ a.2.updated :=
  (C117_newest (fun t t' h => by simp; omega) owner data).2

end Swc
