/-
C13: printed quantities (`core/src/lib.rs:838-889`).
-/
import Mathlib.Tactic.Linarith
import Mathlib.Tactic.NormNum
import Mathlib.Tactic.Ring
import Mathlib.Tactic.FieldSimp
import Verif.Spec.Decimal
import Verif.Props.Percent

namespace Swc

open F64 Spec

theorem digitVal_of_isDigit {c : Char} (h : c.isDigit = true) : digitVal c = some (c.toNat - 48) := by
  simp [digitVal, h]

theorem readDigits_eq (s : Str) : ∀ acc, (∀ c ∈ s, c.isDigit = true) → readDigits acc s = some (Nat.ofDigitChars 10 s acc) := by
  induction s with
  | nil => intro acc _; simp [readDigits]
  | cons c s ih =>
    intro acc h
    have h1 : c.isDigit = true := h c (List.mem_cons_self)
    simp only [readDigits, digitVal_of_isDigit h1, Nat.ofDigitChars_cons]
    exact ih _ fun d hd => h d (List.mem_cons_of_mem _ hd)

theorem readNat_eq {s : Str} (h0 : s ≠ []) (h : ∀ c ∈ s, c.isDigit = true) : readNat s = some (Nat.ofDigitChars 10 s 0) := by
  cases s with
  | nil => exact absurd rfl h0
  | cons c s => exact readDigits_eq _ _ h

theorem natToStr_isDigit {n : Nat} {c : Char} (h : c ∈ natToStr n) : c.isDigit = true :=
  Nat.isDigit_of_mem_toDigits (by norm_num) (by norm_num) h

theorem natToStr_ne_nil {n : Nat} : natToStr n ≠ [] := Nat.toDigits_ne_nil

/-- Reading a printed number gives it back. -/
theorem readNat_natToStr (n : Nat) : readNat (natToStr n) = some n := by
  rw [readNat_eq natToStr_ne_nil (fun c h => natToStr_isDigit h)]
  simp [natToStr]

theorem natToStr_injective {m n : Nat} (h : natToStr m = natToStr n) : m = n := by
  have h1 := readNat_natToStr m
  rw [h, readNat_natToStr] at h1
  exact (Option.some.inj h1).symm

theorem isDigit_ne_dot {c : Char} (h : c.isDigit = true) : c ≠ '.' := by
  rintro rfl
  exact absurd h (by decide)

theorem isDigit_isNumChar {c : Char} (h : c.isDigit = true) : isNumChar c = true := by simp [isNumChar, h]

theorem takeWhile_append_of_all {α : Type} {p : α → Bool} {a b : List α} (h : ∀ x ∈ a, p x = true) :
    (a ++ b).takeWhile p = a ++ b.takeWhile p := by
  induction a with
  | nil => rfl
  | cons x a ih =>
    simp only [List.cons_append, List.takeWhile, h x List.mem_cons_self, List.cons.injEq, true_and]
    exact ih fun y hy => h y (List.mem_cons_of_mem _ hy)

theorem dropWhile_append_of_all {α : Type} {p : α → Bool} {a b : List α} (h : ∀ x ∈ a, p x = true) :
    (a ++ b).dropWhile p = b.dropWhile p := by
  induction a with
  | nil => rfl
  | cons x a ih =>
    simp only [List.cons_append, List.dropWhile, h x List.mem_cons_self]
    exact ih fun y hy => h y (List.mem_cons_of_mem _ hy)

/-- A unit is a name that does not begin with a character of a number. -/
def UnitName (s : Str) : Prop := s.takeWhile isNumChar = [] ∧ s.dropWhile isNumChar = s

theorem natToStr_lt_ten {n : Nat} (h : n < 10) : natToStr n = [n.digitChar] := Nat.toDigits_of_lt_base h

theorem digitChar_isDigit {n : Nat} (h : n < 10) : n.digitChar.isDigit = true :=
  natToStr_isDigit (n := n) (by rw [natToStr_lt_ten h]; simp)

/-- Characters printed by `{:.2}` for a non-negative number. -/
theorem fmt2Nonneg_numChars (q : ℚ) : ∀ c ∈ fmt2Nonneg q, isNumChar c = true := by
  intro c hc
  simp only [fmt2Nonneg, List.mem_append, List.mem_cons, List.not_mem_nil, or_false] at hc
  rcases hc with ((hc | hc) | hc) | hc
  · exact isDigit_isNumChar (natToStr_isDigit hc)
  · subst hc; decide
  · exact isDigit_isNumChar (natToStr_isDigit hc)
  · exact isDigit_isNumChar (natToStr_isDigit hc)

theorem fmt2Nonneg_dropWhile (q : ℚ) : (fmt2Nonneg q).dropWhile (· ≠ '.') =
    '.' :: ((((rne (q * 100)).toNat % 100 / 10)).digitChar :: [((rne (q * 100)).toNat % 10).digitChar]) := by
  simp only [fmt2Nonneg]
  rw [natToStr_lt_ten (n := (rne (q * 100)).toNat % 100 / 10) (by omega), natToStr_lt_ten (n := (rne (q * 100)).toNat % 10) (by omega)]
  rw [List.append_assoc, List.append_assoc, dropWhile_append_of_all]
  · simp [List.dropWhile]
  · intro c hc
    simpa using isDigit_ne_dot (natToStr_isDigit hc)

theorem fmt2Nonneg_takeWhile (q : ℚ) : (fmt2Nonneg q).takeWhile (· ≠ '.') = natToStr ((rne (q * 100)).toNat / 100) := by
  simp only [fmt2Nonneg]
  rw [List.append_assoc, List.append_assoc, takeWhile_append_of_all]
  · simp [List.takeWhile]
  · intro c hc
    simpa using isDigit_ne_dot (natToStr_isDigit hc)

/-- Reading what `{:.2}` prints gives the number rounded to hundredths. -/
theorem readDec_fmt2Nonneg (q : ℚ) : readDec (fmt2Nonneg q) = some (((rne (q * 100)).toNat : ℚ) / 100) := by
  simp only [readDec, fmt2Nonneg_dropWhile, fmt2Nonneg_takeWhile, readNat_natToStr]
  have hd1 : (rne (q * 100)).toNat % 100 / 10 < 10 := by omega
  have hd2 : (rne (q * 100)).toNat % 10 < 10 := by omega
  rw [readNat_eq (by simp) (by
    intro c hc
    simp only [List.mem_cons, List.not_mem_nil, or_false] at hc
    rcases hc with rfl | rfl
    · exact digitChar_isDigit hd1
    · exact digitChar_isDigit hd2)]
  rw [Nat.ofDigitChars_cons_digitChar_of_lt_ten hd1, Nat.ofDigitChars_cons_digitChar_of_lt_ten hd2, Nat.ofDigitChars_nil]
  simp only [Option.some.injEq, List.length_cons, List.length_nil]
  generalize (rne (q * 100)).toNat = n
  have hn : n = n / 100 * 100 + (10 * (10 * 0 + n % 100 / 10) + n % 10) := by omega
  have hq : (n : ℚ) = ((n / 100 : ℕ) : ℚ) * 100 + ((10 * (10 * 0 + n % 100 / 10) + n % 10 : ℕ) : ℚ) := by exact_mod_cast hn
  rw [hq]
  push_cast
  ring

theorem rne_hundred (q : ℚ) (h : 0 ≤ q) : |((rne (q * 100)).toNat : ℚ) / 100 - q| ≤ 1 / 200 := by
  have h1 := abs_rne_sub (q * 100)
  have h2 : (0 : ℤ) ≤ rne (q * 100) := le_rne (by simpa using h)
  have h3 : ((rne (q * 100)).toNat : ℚ) = (rne (q * 100) : ℚ) := by
    have : ((rne (q * 100)).toNat : ℤ) = rne (q * 100) := Int.toNat_of_nonneg h2
    exact_mod_cast this
  rw [h3]
  rw [abs_le] at h1 ⊢
  constructor <;> linarith [h1.1, h1.2]

/-- The value computed by `w as f64 / unit as f64`. -/
theorem quot_fin {w u : ℕ} (hw : w < 2 ^ 128) (hu : 1 < u) (hu' : u ≤ 2 ^ 53) (huw : u ≤ w) :
    ∃ q : ℚ, F64.div (F64.ofNat w) (F64.ofNat u) = fin q ∧ 0 ≤ q ∧ |q - (w : ℚ) / u| ≤ (w : ℚ) / u / 2 ^ 51 := by
  have hup : (0 : ℚ) < u := by exact_mod_cast (by omega : 0 < u)
  have hl : (2 : ℕ) ^ 53 < 2 ^ 128 := by norm_num
  have eu : rndQ (u : ℚ) = u := rndQ_nat hu'
  obtain ⟨r1, r2⟩ := ratio_bounds (old := u) (new := w) (by omega) hw
  rw [ofNat_fin hw, ofNat_fin (lt_of_le_of_lt hu' hl)]
  refine ⟨rndQ (rndQ (w : ℚ) / rndQ (u : ℚ)), ?_, rndQ_nonneg r1, ?_⟩
  · simp only [F64.div]
    rw [if_neg (by rw [eu]; exact ne_of_gt hup), rnd_fin' (k := 128) (by rw [abs_of_nonneg r1]; exact r2) (by norm_num)]
  · rw [eu]
    have hw1 : (1 : ℚ) ≤ w := by exact_mod_cast (by omega : 1 ≤ w)
    obtain ⟨a1, a2⟩ := rndQ_rel (q := (w : ℚ)) (by positivity) (Or.inr (le_trans (by norm_num) hw1))
    generalize hx : (w : ℚ) / u = x
    have hx1 : 1 ≤ x := by rw [← hx, le_div_iff₀ hup, one_mul]; exact_mod_cast huw
    have q1 : x * (1 - 1 / 2 ^ 53) ≤ rndQ (w : ℚ) / u := by
      rw [le_div_iff₀ hup]
      have : x * (1 - 1 / 2 ^ 53) * u = (w : ℚ) * (1 - 1 / 2 ^ 53) := by rw [← hx]; field_simp
      rw [this]; exact a1
    have q2 : rndQ (w : ℚ) / u ≤ x * (1 + 1 / 2 ^ 53) := by
      rw [div_le_iff₀ hup]
      have : x * (1 + 1 / 2 ^ 53) * u = (w : ℚ) * (1 + 1 / 2 ^ 53) := by rw [← hx]; field_simp
      rw [this]; exact a2
    generalize rndQ (w : ℚ) / u = y at q1 q2
    have hy : 1 / 2 ≤ y := by
      have : (1 : ℚ) * (1 - 1 / 2 ^ 53) ≤ x * (1 - 1 / 2 ^ 53) := mul_le_mul_of_nonneg_right hx1 (by norm_num)
      norm_num at this q1 ⊢
      linarith
    obtain ⟨b1, b2⟩ := rndQ_rel (q := y) (by linarith) (Or.inr (le_trans (by norm_num) hy))
    rw [abs_le]
    norm_num at q1 q2 b1 b2 ⊢
    constructor <;> linarith

theorem readQuantity_append {body name : Str} (hb : ∀ c ∈ body, isNumChar c = true) (hn : UnitName name) {q : ℚ}
    (hq : readDec body = some q) : readQuantity (body ++ name) = some (q, name) := by
  unfold readQuantity
  rw [takeWhile_append_of_all hb, dropWhile_append_of_all hb, hn.1, hn.2, List.append_nil, hq]
  rfl

/-- A quotient printed with a unit. -/
theorem good_quot {units : List (Str × Nat)} {w u : ℕ} {name : Str} (hw : w < 2 ^ 128) (hu : 1 < u) (hu' : u ≤ 2 ^ 53)
    (huw : u ≤ w) (hn : UnitName name) (hmem : (name, u) ∈ units) (hbest : ∀ p ∈ units, p.2 ≤ w → p.2 ≤ u) :
    GoodRendering units w (fmtQuot w u ++ name) := by
  obtain ⟨q, e, h0, herr⟩ := quot_fin hw hu hu' huw
  have hfmt : fmtQuot w u = fmt2Nonneg q := by
    unfold fmtQuot
    rw [e]
    simp only [fmt2]
    rw [if_neg (not_lt.2 h0)]
  rw [hfmt]
  have hb := fmt2Nonneg_numChars q
  refine ⟨_, name, u, readQuantity_append hb hn (readDec_fmt2Nonneg q), hmem, .inl huw,
    fun n' u' h1 h2 => hbest (n', u') h1 h2, fun h => absurd h (by omega), fun _ => ⟨?_, ?_⟩⟩
  · unfold fracDigits
    rw [takeWhile_append_of_all hb, hn.1, List.append_nil, fmt2Nonneg_dropWhile]
    rfl
  · have h1 := rne_hundred q h0
    calc |((rne (q * 100)).toNat : ℚ) / 100 - (w : ℚ) / u|
        = |(((rne (q * 100)).toNat : ℚ) / 100 - q) + (q - (w : ℚ) / u)| := by ring_nf
      _ ≤ |((rne (q * 100)).toNat : ℚ) / 100 - q| + |q - (w : ℚ) / u| := abs_add_le _ _
      _ ≤ 1 / 200 + (w : ℚ) / u / 2 ^ 51 := add_le_add h1 herr

theorem readDec_natToStr (n : Nat) : readDec (natToStr n) = some (n : ℚ) := by
  have h : (natToStr n).dropWhile (· ≠ '.') = [] := by
    have := dropWhile_append_of_all (p := fun c : Char => decide (c ≠ '.')) (a := natToStr n) (b := [])
      (fun c hc => by simpa using isDigit_ne_dot (natToStr_isDigit hc))
    simpa using this
  simp only [readDec, h, readNat_natToStr]
  rfl

/-- A small number printed exactly. -/
theorem good_small {units : List (Str × Nat)} {w : ℕ} {name : Str} (hn : UnitName name) (hmem : (name, 1) ∈ units)
    (hbest : ∀ p ∈ units, p.2 ≤ w → p.2 ≤ 1) : GoodRendering units w (natToStr w ++ name) :=
  ⟨_, name, 1, readQuantity_append (fun _ hc => isDigit_isNumChar (natToStr_isDigit hc)) hn (readDec_natToStr w), hmem, .inr rfl,
    fun n' u' h1 h2 => hbest (n', u') h1 h2, fun _ => rfl, fun h => absurd rfl h⟩

/-- C13: plain numbers. -/
theorem C13_fmt_scalar (w : ℕ) (hw : w < 2 ^ 128) : GoodRendering scalarUnits w (Dimension.fmtScalar w) := by
  unfold Dimension.fmtScalar
  split
  · exact good_quot hw (by norm_num) (by norm_num) ‹_› (by constructor <;> decide) (by decide) (by simp [scalarUnits])
  split
  · exact good_quot hw (by norm_num) (by norm_num) ‹_› (by constructor <;> decide) (by decide) (by simp [scalarUnits]; omega)
  split
  · exact good_quot hw (by norm_num) (by norm_num) ‹_› (by constructor <;> decide) (by decide) (by simp [scalarUnits]; omega)
  split
  · exact good_quot hw (by norm_num) (by norm_num) ‹_› (by constructor <;> decide) (by decide) (by simp [scalarUnits]; omega)
  · have := good_small (units := scalarUnits) (w := w) (name := str% "") (by constructor <;> decide) (by decide)
      (by simp [scalarUnits]; omega)
    simpa using this

/-- C13: times. -/
theorem C13_fmt_time (t : ℕ) (ht : t < 2 ^ 128) : GoodRendering timeUnits t (Dimension.fmtTime t) := by
  unfold Dimension.fmtTime
  split
  · exact good_quot ht (by norm_num) (by norm_num) ‹_› (by constructor <;> decide) (by decide) (by simp [timeUnits])
  split
  · exact good_quot ht (by norm_num) (by norm_num) ‹_› (by constructor <;> decide) (by decide) (by simp [timeUnits]; omega)
  split
  · exact good_quot ht (by norm_num) (by norm_num) ‹_› (by constructor <;> decide) (by decide) (by simp [timeUnits]; omega)
  split
  · exact good_quot ht (by norm_num) (by norm_num) ‹_› (by constructor <;> decide) (by decide) (by simp [timeUnits]; omega)
  · exact good_small (by constructor <;> decide) (by decide) (by simp [timeUnits]; omega)

/-- C13: proof sizes. -/
theorem C13_fmt_proof (b : ℕ) (hb : b < 2 ^ 128) : GoodRendering sizeUnits b (Dimension.fmtProof b) := by
  unfold Dimension.fmtProof
  split
  · exact good_quot hb (by norm_num) (by norm_num) ‹_› (by constructor <;> decide) (by decide) (by simp [sizeUnits])
  split
  · exact good_quot hb (by norm_num) (by norm_num) ‹_› (by constructor <;> decide) (by decide) (by simp [sizeUnits]; omega)
  split
  · exact good_quot hb (by norm_num) (by norm_num) ‹_› (by constructor <;> decide) (by decide) (by simp [sizeUnits]; omega)
  · exact good_small (by constructor <;> decide) (by decide) (by simp [sizeUnits]; omega)

/-- C13: `fmt_value` picks the table of the dimension. -/
theorem C13_fmt_value (d : Dimension) (v : ℕ) (hv : v < 2 ^ 128) :
    GoodRendering (match d with | .time => timeUnits | .proof => sizeUnits) v (d.fmtValue v) := by
  cases d
  · exact C13_fmt_time v hv
  · exact C13_fmt_proof v hv

example : Dimension.fmtTime 26035000 = str% "26.04us" := by decide +kernel
example : Dimension.fmtScalar 999 = str% "999" := by decide +kernel
example : Dimension.fmtProof 1572864 = str% "1.50MiB" := by decide +kernel

end Swc
