/-
The values on command lines are read as they are written: numbers, ports, paths, names.
-/
import Verif.Spec.CommandLine
import Verif.Props.Options
import Verif.Props.Branches
import Mathlib.Tactic.Ring
import Mathlib.Tactic.FieldSimp

namespace Swc

open Spec

theorem digitsNat_eq (s : Str) : digitsNat s = digitsValue s := by
  have h : ∀ (s : Str) (a : Nat), s.foldl (fun n c => 10 * n + (c.toNat - 48)) a = a * 10 ^ s.length + digitsValue s := by
    intro s
    induction s with
    | nil => intro a; simp [digitsValue]
    | cons c s ih =>
      intro a
      rw [List.foldl_cons, ih, digitsValue, List.length_cons]
      ring
  rw [digitsNat, h]
  simp

theorem digitsValue_append (s t : Str) : digitsValue (s ++ t) = digitsValue s * 10 ^ t.length + digitsValue t := by
  induction s with
  | nil => simp [digitsValue]
  | cons c s ih =>
    rw [List.cons_append, digitsValue, digitsValue, ih, List.length_append]
    ring

theorem digits_all (d : Str) : d.all Char.isDigit = true ↔ Digits d := by
  rw [List.all_eq_true]
  rfl

theorem takeWhile_all {α : Type} {p : α → Bool} (l : List α) {c : α} (h : c ∈ l.takeWhile p) : p c := by
  induction l with
  | nil => cases h
  | cons a l ih =>
    rw [List.takeWhile_cons] at h
    split at h
    · rcases List.mem_cons.1 h with rfl | h
      · assumption
      · exact ih h
    · cases h

/-- Digits and what does not begin with one. -/
theorem span_digits {i x : Str} (hi : Digits i) (hx : ∀ c r, x = c :: r → ¬ c.isDigit) :
    (i ++ x).takeWhile Char.isDigit = i ∧ (i ++ x).dropWhile Char.isDigit = x := by
  rw [List.takeWhile_append_of_pos hi, List.dropWhile_append_of_pos hi]
  cases x with
  | nil => simp
  | cons c r =>
    have := hx c r rfl
    simp [this]

theorem exponent_head {x : Str} {e : ℤ} (h : Exponent x e) : x = [] ∨ ∃ c r, x = c :: r ∧ (c = 'e' ∨ c = 'E') := by
  cases h with
  | none => exact .inl rfl
  | plain h => exact .inr ⟨_, _, rfl, h⟩
  | plus h => exact .inr ⟨_, _, rfl, h⟩
  | minus h => exact .inr ⟨_, _, rfl, h⟩

theorem exponent_plain {x : Str} {e : ℤ} (h : Exponent x e) : ∀ c r, x = c :: r → ¬ c.isDigit ∧ c ≠ '.' := by
  intro c r hx
  rcases exponent_head h with h | ⟨c', r', h, hc⟩
  · rw [h] at hx; cases hx
  · rw [h] at hx
    cases hx
    rcases hc with rfl | rfl <;> decide

theorem expOf_iff (x : Str) (e : ℤ) : expOf x = some e ↔ Exponent x e := by
  constructor
  · intro h
    cases x with
    | nil => cases h; exact .none
    | cons c r =>
      rw [expOf] at h
      by_cases hc : c = 'e' ∨ c = 'E'
      · rw [if_pos hc, readExp.eq_def] at h
        dsimp only at h
        split at h
        · split at h
          · rename_i hd
            cases h
            rw [digitsNat_eq]
            exact .plus hc hd.1 ((digits_all _).1 hd.2)
          · cases h
        · split at h
          · rename_i hd
            cases h
            rw [digitsNat_eq]
            exact .minus hc hd.1 ((digits_all _).1 hd.2)
          · cases h
        · split at h
          · rename_i hd
            cases h
            rw [digitsNat_eq]
            exact .plain hc hd.1 ((digits_all _).1 hd.2)
          · cases h
      · rw [if_neg hc] at h
        cases h
  · intro h
    cases h with
    | none => rfl
    | @plain c d hc hd hall =>
      rw [expOf, if_pos hc, readExp.eq_def]
      dsimp only
      split
      · exact absurd (hall _ List.mem_cons_self) (by decide)
      · exact absurd (hall _ List.mem_cons_self) (by decide)
      · rw [if_pos ⟨hd, (digits_all _).2 hall⟩, digitsNat_eq]
    | @plus c d hc hd hall =>
      rw [expOf, if_pos hc, readExp.eq_def]
      show (if d ≠ [] ∧ d.all Char.isDigit = true then some ((digitsNat d : ℕ) : ℤ) else none) = _
      rw [if_pos ⟨hd, (digits_all _).2 hall⟩, digitsNat_eq]
    | @minus c d hc hd hall =>
      rw [expOf, if_pos hc, readExp.eq_def]
      show (if d ≠ [] ∧ d.all Char.isDigit = true then some ((digitsNat d : ℕ) : ℤ) else none).map Neg.neg = _
      rw [if_pos ⟨hd, (digits_all _).2 hall⟩, digitsNat_eq]
      rfl

theorem readDecimal_whole {i x : Str} {e : ℤ} (hi : Digits i) (hn : i ≠ []) (hx : Exponent x e) :
    readDecimal (i ++ x) = some (digitsValue i * (10 : ℚ) ^ e) := by
  have h1 := span_digits hi (fun c r h => (exponent_plain hx c r h).1)
  have h2 := (expOf_iff x e).2 hx
  rw [readDecimal]
  rw [h1.1, h1.2]
  have h3 : fracOf x = ([], x) := by
    rw [fracOf.eq_def]
    split
    · exact absurd rfl ((exponent_plain hx _ _ rfl).2)
    · rfl
  rw [h3]
  dsimp only
  rw [if_neg (by simp [hn]), h2]
  simp [digitsNat_eq]

theorem readDecimal_point {i f x : Str} {e : ℤ} (hi : Digits i) (hf : Digits f) (hn : i ≠ [] ∨ f ≠ []) (hx : Exponent x e) :
    readDecimal (i ++ '.' :: f ++ x) = some ((digitsValue i + digitsValue f / (10 : ℚ) ^ f.length) * (10 : ℚ) ^ e) := by
  have h1 := span_digits (x := '.' :: (f ++ x)) hi (by
    intro c r h
    cases h
    decide)
  have h4 := span_digits hf (fun c r h => (exponent_plain hx c r h).1)
  have h2 := (expOf_iff x e).2 hx
  rw [List.append_assoc, List.cons_append]
  rw [readDecimal, h1.1, h1.2]
  have h3 : fracOf ('.' :: (f ++ x)) = (f, x) := by
    show ((f ++ x).takeWhile Char.isDigit, (f ++ x).dropWhile Char.isDigit) = _
    rw [h4.1, h4.2]
  rw [h3, if_neg (by tauto)]
  rw [h2, Option.map_some, digitsNat_eq, digitsValue_append]
  congr 1
  rw [zpow_sub₀ (by norm_num), zpow_natCast]
  push_cast
  field_simp

theorem readDecimal_iff (s : Str) (q : ℚ) : readDecimal s = some q ↔
    (∃ i x e, s = i ++ x ∧ Digits i ∧ i ≠ [] ∧ Exponent x e ∧ q = digitsValue i * (10 : ℚ) ^ e) ∨
    ∃ i f x e, s = i ++ '.' :: f ++ x ∧ Digits i ∧ Digits f ∧ (i ≠ [] ∨ f ≠ []) ∧ Exponent x e
      ∧ q = (digitsValue i + digitsValue f / (10 : ℚ) ^ f.length) * (10 : ℚ) ^ e := by
  constructor
  · intro h
    have hs := (List.takeWhile_append_dropWhile (p := Char.isDigit) (l := s)).symm
    have hi : Digits (s.takeWhile Char.isDigit) := fun c hc => takeWhile_all _ hc
    have h0 := h
    rw [readDecimal] at h
    generalize s.takeWhile Char.isDigit = i at *
    generalize s.dropWhile Char.isDigit = rest at *
    split at h
    · cases h
    rename_i hn
    obtain ⟨e, he, -⟩ := Option.map_eq_some_iff.1 h
    have hx := (expOf_iff _ e).1 he
    clear h he
    rw [fracOf.eq_def] at hn hx
    split at hn
    · rename_i r
      change Exponent (r.dropWhile Char.isDigit) e at hx
      have hr := (List.takeWhile_append_dropWhile (p := Char.isDigit) (l := r)).symm
      have hf : Digits (r.takeWhile Char.isDigit) := fun c hc => takeWhile_all _ hc
      dsimp only at hn
      generalize r.takeWhile Char.isDigit = f at *
      generalize r.dropWhile Char.isDigit = x at *
      have hn' : i ≠ [] ∨ f ≠ [] := by tauto
      right
      refine ⟨i, f, x, e, by rw [hs, hr]; simp, hi, hf, hn', hx, ?_⟩
      have := readDecimal_point hi hf hn' hx
      rw [hs, hr, show i ++ '.' :: (f ++ x) = i ++ '.' :: f ++ x by simp, this] at h0
      exact (Option.some.inj h0).symm
    · rename_i hp
      have hx : Exponent rest e := by
        split at hx
        · exact (hp _ rfl).elim
        · exact hx
      have hn' : i ≠ [] := by simpa using hn
      left
      refine ⟨i, rest, e, hs, hi, hn', hx, ?_⟩
      rw [hs, readDecimal_whole hi hn' hx] at h0
      exact (Option.some.inj h0).symm
  · rintro (⟨i, x, e, rfl, hi, hn, hx, rfl⟩ | ⟨i, f, x, e, rfl, hi, hf, hn, hx, rfl⟩)
    · exact readDecimal_whole hi hn hx
    · exact readDecimal_point hi hf hn hx

/-- A number begins with a letter, a digit or a point, and with a letter only if it is a word. -/
theorem decimal_head {s : Str} {q : ℚ} (h : readDecimal s = some q) : ∃ c r, s = c :: r ∧ (c.isDigit ∨ c = '.') := by
  rcases (readDecimal_iff s q).1 h with ⟨i, x, e, rfl, hi, hn, -⟩ | ⟨i, f, x, e, rfl, hi, -⟩
  · cases i with
    | nil => exact absurd rfl hn
    | cons c r => exact ⟨c, r ++ x, rfl, .inl (hi c List.mem_cons_self)⟩
  · cases i with
    | nil => exact ⟨'.', f ++ x, rfl, .inr rfl⟩
    | cons c r => exact ⟨c, _, rfl, .inl (hi c List.mem_cons_self)⟩

theorem lower_digit {c : Char} (h : c.isDigit ∨ c = '.') : c.toLower = c ∧ c ≠ 'i' ∧ c ≠ 'n' ∧ c ≠ '+' ∧ c ≠ '-' := by
  rcases h with h | rfl
  · have h1 : ¬ ('A'.val ≤ c.val ∧ c.val ≤ 'Z'.val) := by
      simp only [Char.isDigit, Bool.and_eq_true, decide_eq_true_eq, ge_iff_le] at h
      rintro ⟨h1, -⟩
      have h2 := h.2
      rw [UInt32.le_iff_toNat_le] at h1 h2
      have : 'A'.val.toNat = 65 := rfl
      have : '9'.val.toNat = 57 := rfl
      omega
    refine ⟨?_, ?_, ?_, ?_, ?_⟩
    · unfold Char.toLower
      simp only [h1, dite_false]
    all_goals
      rintro rfl
      revert h
      decide
  · decide

theorem readMagnitude_iff (s : Str) (x : F64) : readMagnitude s = some x ↔ Magnitude s x := by
  have hl : ∀ t : Str, asciiLower t = t → (asciiLower s = t ↔ SameLetters t s) := by
    intro t ht
    rw [← asciiLower_iff, ht, eq_comm]
  unfold readMagnitude
  have hinf := or_congr (hl (str% "inf") (by decide)) (hl (str% "infinity") (by decide))
  have hnan := hl (str% "nan") (by decide)
  constructor
  · intro h
    split at h
    · rename_i hi
      cases h
      exact .inf (hinf.1 hi)
    split at h
    · rename_i hi
      cases h
      exact .nan (hnan.1 hi)
    obtain ⟨q, hq, rfl⟩ := Option.map_eq_some_iff.1 h
    rcases (readDecimal_iff s q).1 hq with ⟨i, x, e, rfl, hi, hn, hx, rfl⟩ | ⟨i, f, x, e, rfl, hi, hf, hn, hx, rfl⟩
    · exact .whole hi hn hx
    · exact .point hi hf hn hx
  · intro h
    have dec : ∀ q, readDecimal s = some q → ¬ (SameLetters (str% "inf") s ∨ SameLetters (str% "infinity") s) ∧ ¬ SameLetters (str% "nan") s := by
      intro q hq
      obtain ⟨c, r, rfl, hc⟩ := decimal_head hq
      obtain ⟨h1, h2, h3, -⟩ := lower_digit hc
      rw [← hinf, ← hnan]
      simp only [asciiLower, List.map_cons, List.cons.injEq, h1, h2, h3, false_and, or_self, not_false_eq_true, and_self]
    cases h with
    | inf h => rw [if_pos (hinf.2 h)]
    | nan h =>
      rw [← hnan] at h
      rw [if_neg, if_pos h]
      rw [h]
      decide
    | whole hi hn hx =>
      have h := readDecimal_whole hi hn hx
      obtain ⟨h1, h2⟩ := dec _ h
      rw [if_neg (mt hinf.1 h1), if_neg (mt hnan.1 h2), h]
      rfl
    | point hi hf hn hx =>
      have h := readDecimal_point hi hf hn hx
      obtain ⟨h1, h2⟩ := dec _ h
      rw [if_neg (mt hinf.1 h1), if_neg (mt hnan.1 h2), h]
      rfl

theorem magnitude_head {s : Str} {x : F64} (h : Magnitude s x) : ∃ c r, s = c :: r ∧ c ≠ '+' ∧ c ≠ '-' := by
  have hl : ∀ (a : Char) (t : Str), a.toLower ≠ '+' → a.toLower ≠ '-' → SameLetters (a :: t) s → ∃ c r, s = c :: r ∧ c ≠ '+' ∧ c ≠ '-' := by
    intro a t h1 h2 h
    cases h with
    | cons h' _ =>
      refine ⟨_, _, rfl, ?_, ?_⟩ <;> rintro rfl
      · exact h1 (h'.trans (by decide))
      · exact h2 (h'.trans (by decide))
  have hd : ∀ q, readDecimal s = some q → ∃ c r, s = c :: r ∧ c ≠ '+' ∧ c ≠ '-' := by
    intro q hq
    obtain ⟨c, r, rfl, hc⟩ := decimal_head hq
    exact ⟨c, r, rfl, (lower_digit hc).2.2.2⟩
  cases h with
  | inf h => rcases h with h | h <;> exact hl _ _ (by decide) (by decide) h
  | nan h => exact hl _ _ (by decide) (by decide) h
  | whole hi hn hx => exact hd _ (readDecimal_whole hi hn hx)
  | point hi hf hn hx => exact hd _ (readDecimal_point hi hf hn hx)

/-- Thresholds. -/
theorem readF64_iff (s : Str) (x : F64) : readF64 s = some x ↔ Number s x := by
  unfold readF64
  constructor
  · intro h
    split at h
    · obtain ⟨y, hy, rfl⟩ := Option.map_eq_some_iff.1 h
      exact .minus ((readMagnitude_iff _ _).1 hy)
    · exact .plus ((readMagnitude_iff _ _).1 h)
    · exact .plain ((readMagnitude_iff _ _).1 h)
  · intro h
    cases h with
    | plain h =>
      obtain ⟨c, r, rfl, h1, h2⟩ := magnitude_head h
      split
      · rename_i e; cases e; exact absurd rfl h2
      · rename_i e; cases e; exact absurd rfl h1
      · exact (readMagnitude_iff _ _).2 h
    | plus h => exact (readMagnitude_iff _ _).2 h
    | minus h =>
      show (readMagnitude _).map F64.neg = _
      rw [(readMagnitude_iff _ _).2 h]
      rfl

/-- Ports. -/
theorem readPort_iff (s : Str) (n : Nat) : readPort s = some n ↔ PortText s n := by
  have key : ∀ (d : Str) (p : Nat → Prop) [DecidablePred p],
      ((if d ≠ [] ∧ d.all Char.isDigit then some (digitsNat d) else none).filter fun n => decide (p n)) = some n ↔
        d ≠ [] ∧ Digits d ∧ p (digitsValue d) ∧ n = digitsValue d := by
    intro d p _
    rw [← digits_all, digitsNat_eq]
    by_cases h : d ≠ [] ∧ d.all Char.isDigit = true
    · rw [if_pos h, Option.filter_eq_some_iff]
      simp only [Option.some.injEq, decide_eq_true_eq]
      constructor
      · rintro ⟨rfl, h2⟩
        exact ⟨h.1, h.2, h2, rfl⟩
      · rintro ⟨-, -, h2, rfl⟩
        exact ⟨rfl, h2⟩
    · rw [if_neg h]
      constructor
      · intro h; cases h
      · rintro ⟨h1, h2, -⟩
        exact absurd ⟨h1, h2⟩ h
  unfold readPort
  constructor
  · intro h
    split at h
    · obtain ⟨h1, h2, h3, rfl⟩ := (key _ (· < 65536)).1 h
      exact .plus h1 h2 h3
    · obtain ⟨h1, h2, h3, rfl⟩ := (key _ (· = 0)).1 h
      rw [h3]
      exact .minus h1 h2 h3
    · obtain ⟨h1, h2, h3, rfl⟩ := (key _ (· < 65536)).1 h
      exact .plain h1 h2 h3
  · intro h
    cases h with
    | plain h1 h2 h3 =>
      split
      · exact absurd (h2 _ List.mem_cons_self) (by decide)
      · exact absurd (h2 _ List.mem_cons_self) (by decide)
      · exact (key _ (· < 65536)).2 ⟨h1, h2, h3, rfl⟩
    | plus h1 h2 h3 => exact (key _ (· < 65536)).2 ⟨h1, h2, h3, rfl⟩
    | minus h1 h2 h3 => exact (key _ (· = 0)).2 ⟨h1, h2, h3, h3.symm⟩

/-! ### Paths -/

theorem slashed_iff (s : Str) (ts : List Str) : Slashed s ts ↔ ts = splitChar '/' s := by
  constructor
  · intro h
    induction h with
    | last h => rw [splitChar_no h]
    | cons h _ ih => rw [splitChar_cons h, ih]
  · rintro rfl
    induction s with
    | nil => exact .last (by simp)
    | cons c s ih =>
      rw [splitChar]
      by_cases hc : c = '/'
      · rw [if_pos hc, hc]
        exact .cons (t := []) (by simp) ih
      · rw [if_neg hc]
        generalize splitChar '/' s = l at ih
        cases ih with
        | last h => exact .last (by simp [h, Ne.symm hc])
        | cons h hs => exact .cons (t := c :: _) (by simp [h, Ne.symm hc]) hs

/-- The components of pieces as the code reads them. -/
def compsOf (l : List Str) : Path :=
  (l.filter fun t => t ≠ [] ∧ t ≠ str% ".").map fun t => if t = str% ".." then Comp.parent else .normal t

theorem steps_iff (ts : List Str) (p : Path) : Steps ts p ↔ p = compsOf ts := by
  constructor
  · intro h
    induction h with
    | nil => rfl
    | skip h _ ih =>
      rw [ih, compsOf, compsOf, List.filter_cons, if_neg]
      simp only [decide_eq_true_eq]
      tauto
    | up _ ih =>
      rw [ih, compsOf, compsOf, List.filter_cons, if_pos (by decide), List.map_cons, if_pos rfl]
    | down h1 h2 h3 _ ih =>
      rw [ih, compsOf, compsOf, List.filter_cons, if_pos (by simp only [decide_eq_true_eq]; exact ⟨h1, h2⟩), List.map_cons, if_neg h3]
  · rintro rfl
    induction ts with
    | nil => exact .nil
    | cons t ts ih =>
      rw [compsOf, List.filter_cons]
      by_cases h : t = [] ∨ t = str% "."
      · rw [if_neg (by simp only [decide_eq_true_eq]; tauto)]
        exact .skip h ih
      · rw [if_pos (by simp only [decide_eq_true_eq]; tauto), List.map_cons]
        rw [not_or] at h
        by_cases h3 : t = str% ".."
        · rw [if_pos h3, h3]
          exact .up ih
        · rw [if_neg h3]
          exact .down h.1 h.2 h3 ih

theorem readPath_iff (s : Str) (p : Path) : readPath s = some p ↔ PathText s p := by
  unfold readPath
  constructor
  · intro h
    split at h
    · cases h
    rename_i hs
    dsimp only at h
    split at h
    · rename_i rest hp
      cases s with
      | nil => exact absurd rfl hs
      | cons c s =>
        rw [splitChar] at hp
        by_cases hc : c = '/'
        · rw [if_pos hc] at hp
          cases hp
          cases h
          rw [hc]
          exact .absolute ((slashed_iff _ _).2 rfl) ((steps_iff _ _).2 rfl)
        · rw [if_neg hc] at hp
          split at hp <;> cases hp
    · rename_i rest hp
      cases h
      exact .here ((slashed_iff _ _).2 hp.symm) ((steps_iff _ _).2 rfl)
    · rename_i h1 h2
      cases h
      cases hp : splitChar '/' s with
      | nil => exact absurd hp (splitChar_ne_nil _ _)
      | cons t ts =>
        refine .relative ((slashed_iff _ _).2 hp.symm) ?_ ?_ ((steps_iff _ _).2 rfl)
        · rintro rfl
          exact h1 _ hp
        · rintro rfl
          exact h2 _ hp
  · intro h
    cases h with
    | @absolute s ts p h1 h2 =>
      rw [if_neg (by simp), (steps_iff _ _).1 h2]
      rw [slashed_iff] at h1
      dsimp only
      have : splitChar '/' ('/' :: s) = [] :: splitChar '/' s := by rw [splitChar, if_pos rfl]
      rw [this, ← h1]
      rfl
    | here h1 h2 =>
      rw [slashed_iff] at h1
      rw [if_neg, (steps_iff _ _).1 h2]
      · dsimp only
        rw [← h1]
        rfl
      · rintro rfl
        cases h1
    | relative h1 h3 h4 h2 =>
      rw [slashed_iff] at h1
      rw [if_neg, (steps_iff _ _).1 h2]
      · dsimp only
        rw [← h1]
        split
        · rename_i e; cases e; exact absurd rfl h3
        · rename_i e; cases e; exact absurd rfl h4
        · rfl
      · rintro rfl
        cases h1
        exact h3 rfl

/-! ### Names -/

theorem named_iff {E : Type} {idents : List (Str × E)} {names : List (Str × E)} (hn : (idents.map fun p => asciiLower (clapKebab p.1)).Nodup)
    (he : idents.map (fun p => (clapKebab p.1, p.2)) = names) (s : Str) (e : E) : valueEnum idents s = some e ↔ NamedAs names s e := by
  rw [valueEnum_iff _ hn, ← he]
  unfold NamedAs
  constructor
  · rintro ⟨i, hi, hs⟩
    exact ⟨_, List.mem_map.2 ⟨_, hi, rfl⟩, hs⟩
  · rintro ⟨n, hm, hs⟩
    obtain ⟨⟨i, e'⟩, hi, h⟩ := List.mem_map.1 hm
    cases h
    exact ⟨i, hi, hs⟩

end Swc
