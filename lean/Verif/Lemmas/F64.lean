/-
Theory of rounding for the binary64 model: monotonicity, exactness, error bounds.
-/
import Mathlib.Tactic.Linarith
import Mathlib.Tactic.Positivity
import Mathlib.Tactic.FieldSimp
import Mathlib.Tactic.Ring
import Mathlib.Tactic.NormNum
import Mathlib.Algebra.Order.Floor.Ring
import Verif.Model.F64

namespace Swc.F64

theorem rne_cases (x : ℚ) : rne x = ⌊x⌋ ∨ (rne x = ⌊x⌋ + 1 ∧ (1 : ℚ) / 2 ≤ x - ⌊x⌋) := by
  unfold rne
  simp only
  split
  · exact .inl rfl
  · rename_i h
    split
    · rename_i h'; exact .inr ⟨rfl, le_of_lt h'⟩
    · split
      · exact .inl rfl
      · exact .inr ⟨rfl, not_lt.1 h⟩

theorem floor_le_rne (x : ℚ) : ⌊x⌋ ≤ rne x := by
  rcases rne_cases x with h | h <;> omega

theorem rne_le_floor_succ (x : ℚ) : rne x ≤ ⌊x⌋ + 1 := by
  rcases rne_cases x with h | h <;> omega

theorem le_rne {n : ℤ} {x : ℚ} (h : (n : ℚ) ≤ x) : n ≤ rne x :=
  le_trans (Int.le_floor.2 h) (floor_le_rne x)

theorem rne_le {n : ℤ} {x : ℚ} (h : x ≤ n) : rne x ≤ n := by
  rcases rne_cases x with h' | ⟨h', hd⟩
  · rw [h']
    exact_mod_cast le_trans (Int.floor_le x) h
  · rw [h']
    have h1 : (⌊x⌋ : ℚ) < n := by linarith
    have h2 : ⌊x⌋ < n := by exact_mod_cast h1
    omega

@[simp] theorem rne_int (n : ℤ) : rne (n : ℚ) = n := le_antisymm (rne_le le_rfl) (le_rne le_rfl)

theorem rne_mono {a b : ℚ} (h : a ≤ b) : rne a ≤ rne b := by
  rcases lt_or_eq_of_le (Int.floor_le_floor h) with hl | he
  · calc rne a ≤ ⌊a⌋ + 1 := rne_le_floor_succ a
      _ ≤ ⌊b⌋ := hl
      _ ≤ rne b := floor_le_rne b
  · unfold rne
    simp only [he]
    have : a - (⌊b⌋ : ℚ) ≤ b - ⌊b⌋ := by linarith
    split_ifs <;> first | omega | (exfalso; linarith)

theorem abs_rne_sub (x : ℚ) : |(rne x : ℚ) - x| ≤ 1 / 2 := by
  have h1 := Int.floor_le x
  have h2 := Int.lt_floor_add_one x
  unfold rne
  simp only
  split_ifs with ha hb hc
  · rw [abs_le]; constructor <;> linarith
  · push_cast; rw [abs_le]; constructor <;> linarith
  · rw [abs_le]; constructor <;> linarith
  · push_cast; rw [abs_le]; constructor <;> linarith

/-- Strictly below / above the midpoint determines the result. -/
theorem rne_eq_of_abs_lt {x : ℚ} {n : ℤ} (h : |x - n| < 1 / 2) : rne x = n := by
  have h1 := abs_rne_sub x
  have h2 : |((rne x : ℤ) : ℚ) - n| < 1 := by
    calc |((rne x : ℤ) : ℚ) - n| = |(((rne x : ℤ) : ℚ) - x) + (x - n)| := by ring_nf
      _ ≤ |((rne x : ℤ) : ℚ) - x| + |x - n| := abs_add_le _ _
      _ < 1 := by linarith
  have h3 : |rne x - n| < 1 := by exact_mod_cast h2
  rw [Int.abs_lt_one_iff] at h3
  omega

theorem rne_neg (x : ℚ) : rne (-x) = -rne x := by
  by_cases hx : (⌊x⌋ : ℚ) = x
  · rw [← hx, ← Int.cast_neg, rne_int, rne_int]
  · have h1 : (⌊x⌋ : ℚ) < x := lt_of_le_of_ne (Int.floor_le x) hx
    have h2 := Int.lt_floor_add_one x
    have hf : ⌊-x⌋ = -⌊x⌋ - 1 := by
      rw [Int.floor_eq_iff]
      push_cast
      constructor <;> linarith
    unfold rne
    simp only [hf]
    push_cast
    have e : (-x - (-(⌊x⌋ : ℚ) - 1)) = 1 - (x - ⌊x⌋) := by ring
    rw [e]
    split_ifs <;> first | omega | (exfalso; linarith)

theorem two_zpow_pos (e : ℤ) : (0 : ℚ) < (2 : ℚ) ^ e := zpow_pos (by norm_num) e

theorem ulpExp_neg (q : ℚ) : ulpExp (-q) = ulpExp q := by simp [ulpExp]

@[simp] theorem rndQ_zero : rndQ 0 = 0 := by simp [rndQ]

theorem rndQ_neg (q : ℚ) : rndQ (-q) = -rndQ q := by
  unfold rndQ
  by_cases h : q = 0
  · simp [h]
  · simp only [neg_eq_zero, h, if_false, ulpExp_neg, neg_div, rne_neg]
    push_cast; ring

theorem log_le_of_lt {q : ℚ} (hq : 0 < q) {k : ℤ} (h : q < (2 : ℚ) ^ k) : Int.log 2 q < k := by
  have := Int.zpow_log_le_self (b := 2) (r := q) (by norm_num) hq
  have h2 : (2 : ℚ) ^ (Int.log 2 q) < (2 : ℚ) ^ k := lt_of_le_of_lt (by exact_mod_cast this) h
  exact (zpow_lt_zpow_iff_right₀ (by norm_num)).1 h2

theorem le_log_of_le {q : ℚ} {k : ℤ} (h : (2 : ℚ) ^ k ≤ q) : k ≤ Int.log 2 q := by
  by_contra hc
  have := Int.lt_zpow_succ_log_self (b := 2) (by norm_num) q
  have h3 : (2 : ℚ) ^ (Int.log 2 q + 1) ≤ (2 : ℚ) ^ k := zpow_le_zpow_right₀ (by norm_num) (by omega)
  have h4 : q < (2 : ℚ) ^ (Int.log 2 q + 1) := by exact_mod_cast this
  linarith

theorem log_eq_of {q : ℚ} (hq : 0 < q) {k : ℤ} (h : (2 : ℚ) ^ k ≤ q) (h' : q < (2 : ℚ) ^ (k + 1)) : Int.log 2 q = k := by
  have := log_le_of_lt hq h'
  have := le_log_of_le h
  omega

theorem zpow_log_le {q : ℚ} (hq : 0 < q) : (2 : ℚ) ^ (Int.log 2 q) ≤ q := by
  exact_mod_cast Int.zpow_log_le_self (b := 2) (by norm_num) hq

theorem lt_zpow_log {q : ℚ} : q < (2 : ℚ) ^ (Int.log 2 q + 1) := by
  exact_mod_cast Int.lt_zpow_succ_log_self (b := 2) (by norm_num) q

theorem log_mono {a b : ℚ} (ha : 0 < a) (h : a ≤ b) : Int.log 2 a ≤ Int.log 2 b := Int.log_mono_right ha h

theorem ulpExp_mono {a b : ℚ} (ha : 0 < a) (h : a ≤ b) : ulpExp a ≤ ulpExp b := by
  unfold ulpExp
  rw [abs_of_pos ha, abs_of_pos (lt_of_lt_of_le ha h)]
  have := log_mono ha h
  omega

/-- Grid points bound the rounding from above. -/
theorem rndQ_le_grid {q : ℚ} {n e : ℤ} (he : ulpExp q ≤ e) (h : q ≤ n * (2 : ℚ) ^ e) : rndQ q ≤ n * (2 : ℚ) ^ e := by
  unfold rndQ
  split
  · rename_i h0; rw [h0] at h; exact h
  · have hp := two_zpow_pos (ulpExp q)
    obtain ⟨k, hk⟩ := Int.eq_ofNat_of_zero_le (sub_nonneg.2 he)
    have e1 : (2 : ℚ) ^ e = (2 : ℚ) ^ k * (2 : ℚ) ^ (ulpExp q) := by
      rw [← zpow_natCast, ← zpow_add₀ (by norm_num)]; congr 1; omega
    have h2 : q / (2 : ℚ) ^ ulpExp q ≤ ((n * 2 ^ k : ℤ) : ℚ) := by
      rw [div_le_iff₀ hp]; push_cast
      rw [e1] at h; linarith
    have h3 := rne_le h2
    have h4 : (rne (q / (2 : ℚ) ^ ulpExp q) : ℚ) ≤ ((n * 2 ^ k : ℤ) : ℚ) := by exact_mod_cast h3
    calc _ ≤ ((n * 2 ^ k : ℤ) : ℚ) * (2 : ℚ) ^ ulpExp q := mul_le_mul_of_nonneg_right h4 (le_of_lt hp)
      _ = n * (2 : ℚ) ^ e := by rw [e1]; push_cast; ring

/-- Grid points bound the rounding from below. -/
theorem grid_le_rndQ {q : ℚ} {n e : ℤ} (he : ulpExp q ≤ e) (h : n * (2 : ℚ) ^ e ≤ q) : n * (2 : ℚ) ^ e ≤ rndQ q := by
  have := rndQ_le_grid (q := -q) (n := -n) (e := e) (by rw [ulpExp_neg]; exact he) (by push_cast; linarith)
  rw [rndQ_neg] at this
  push_cast at this
  linarith

theorem rndQ_nonneg {q : ℚ} (h : 0 ≤ q) : 0 ≤ rndQ q := by
  have := grid_le_rndQ (q := q) (n := 0) (e := ulpExp q) le_rfl (by simpa using h)
  simpa using this

theorem rndQ_nonpos {q : ℚ} (h : q ≤ 0) : rndQ q ≤ 0 := by
  have := rndQ_le_grid (q := q) (n := 0) (e := ulpExp q) le_rfl (by simpa using h)
  simpa using this

theorem rndQ_mono_pos {a b : ℚ} (ha : 0 < a) (h : a ≤ b) : rndQ a ≤ rndQ b := by
  have hb : 0 < b := lt_of_lt_of_le ha h
  rcases lt_or_eq_of_le (ulpExp_mono ha h) with hl | he
  · -- different exponents: a power of two separates them
    have hlog : Int.log 2 a < Int.log 2 b ∧ ulpExp b = Int.log 2 b - 52 := by
      unfold ulpExp at hl ⊢
      rw [abs_of_pos ha, abs_of_pos hb] at hl
      rw [abs_of_pos hb]
      constructor <;> omega
    have h1 : a ≤ (2 : ℚ) ^ (Int.log 2 b) :=
      le_trans (le_of_lt lt_zpow_log) (zpow_le_zpow_right₀ (by norm_num) (by omega))
    have h2 := zpow_log_le hb
    have e1 : ulpExp a ≤ Int.log 2 b := by omega
    have e2 : ulpExp b ≤ Int.log 2 b := by omega
    have g1 := rndQ_le_grid (n := 1) e1 (by simpa using h1)
    have g2 := grid_le_rndQ (n := 1) e2 (by simpa using h2)
    linarith
  · unfold rndQ
    rw [if_neg (ne_of_gt ha), if_neg (ne_of_gt hb), he]
    have hp := two_zpow_pos (ulpExp b)
    apply mul_le_mul_of_nonneg_right _ (le_of_lt hp)
    exact_mod_cast rne_mono (div_le_div_of_nonneg_right h (le_of_lt hp))

/-- Rounding is monotone. -/
theorem rndQ_mono {a b : ℚ} (h : a ≤ b) : rndQ a ≤ rndQ b := by
  rcases lt_trichotomy a 0 with ha | ha | ha
  · rcases lt_or_ge b 0 with hb | hb
    · have := rndQ_mono_pos (a := -b) (b := -a) (by linarith) (by linarith)
      rw [rndQ_neg, rndQ_neg] at this
      linarith
    · exact le_trans (rndQ_nonpos (le_of_lt ha)) (rndQ_nonneg hb)
  · subst ha; rw [rndQ_zero]; exact rndQ_nonneg h
  · exact rndQ_mono_pos ha h

/-- Numbers with at most 53 significant bits are represented exactly. -/
theorem rndQ_exact {n e : ℤ} (hn : |n| ≤ 2 ^ 53) (he : -1074 ≤ e) : rndQ (n * (2 : ℚ) ^ e) = n * (2 : ℚ) ^ e := by
  by_cases h0 : n = 0
  · simp [h0]
  have hpe := two_zpow_pos e
  have hne : (n : ℚ) * (2 : ℚ) ^ e ≠ 0 := mul_ne_zero (by exact_mod_cast h0) (ne_of_gt hpe)
  by_cases hb : |n| = 2 ^ 53
  · -- a power of two
    have key : ∀ m : ℤ, m = 2 ^ 53 → rndQ ((m : ℚ) * (2 : ℚ) ^ e) = m * (2 : ℚ) ^ e := by
      intro m hm
      have e1 : (m : ℚ) * (2 : ℚ) ^ e = (2 : ℚ) ^ (e + 53) := by
        rw [hm, zpow_add₀ (by norm_num), mul_comm]; norm_num
      have hlog : Int.log 2 ((m : ℚ) * (2 : ℚ) ^ e) = e + 53 := by
        rw [e1]; exact log_eq_of (two_zpow_pos _) le_rfl (zpow_lt_zpow_right₀ (by norm_num) (by omega))
      have hpos : 0 < (m : ℚ) * (2 : ℚ) ^ e := by rw [e1]; exact two_zpow_pos _
      have hu : ulpExp ((m : ℚ) * (2 : ℚ) ^ e) = e + 1 := by
        unfold ulpExp; rw [abs_of_pos hpos, hlog]; omega
      have e2 : (m : ℚ) * (2 : ℚ) ^ e = ((2 ^ 52 : ℤ) : ℚ) * (2 : ℚ) ^ (e + 1) := by
        rw [hm, zpow_add₀ (by norm_num)]; norm_num; ring
      apply le_antisymm
      · conv_rhs => rw [e2]
        exact rndQ_le_grid (le_of_eq hu) (le_of_eq e2)
      · conv_lhs => rw [e2]
        exact grid_le_rndQ (le_of_eq hu) (le_of_eq e2.symm)
    rcases abs_choice n with ha | ha
    · exact key n (by rw [← ha]; exact hb)
    · have := key (-n) (by rw [← ha]; exact hb)
      rw [Int.cast_neg, neg_mul, rndQ_neg] at this
      linarith
  · have hlt : |n| < 2 ^ 53 := lt_of_le_of_ne hn hb
    have hu : ulpExp ((n : ℚ) * (2 : ℚ) ^ e) ≤ e := by
      unfold ulpExp
      have hpos : 0 < |(n : ℚ) * (2 : ℚ) ^ e| := abs_pos.2 hne
      have : Int.log 2 |(n : ℚ) * (2 : ℚ) ^ e| < e + 53 := by
        apply log_le_of_lt hpos
        rw [abs_mul, abs_of_pos hpe, zpow_add₀ (by norm_num), mul_comm]
        apply mul_lt_mul_of_pos_left _ hpe
        have : (|n| : ℤ) < 2 ^ 53 := hlt
        rw [show ((2 : ℚ) ^ (53 : ℤ)) = ((2 ^ 53 : ℤ) : ℚ) by norm_num, ← Int.cast_abs]
        exact_mod_cast this
      omega
    exact le_antisymm (rndQ_le_grid hu le_rfl) (grid_le_rndQ hu le_rfl)

theorem rndQ_nat {n : ℕ} (hn : n ≤ 2 ^ 53) : rndQ (n : ℚ) = n := by
  have := rndQ_exact (n := n) (e := 0) (by rw [abs_of_nonneg (by positivity)]; exact_mod_cast hn) (by norm_num)
  simpa using this

theorem rndQ_int {n : ℤ} (hn : |n| ≤ 2 ^ 53) : rndQ (n : ℚ) = n := by
  have := rndQ_exact (n := n) (e := 0) hn (by norm_num)
  simpa using this

theorem rndQ_two_zpow {k : ℤ} (hk : -1074 ≤ k) : rndQ ((2 : ℚ) ^ k) = (2 : ℚ) ^ k := by
  have := rndQ_exact (n := 1) (e := k) (by norm_num) hk
  simpa using this

/-- Error of rounding: half a unit in the last place. -/
theorem abs_rndQ_sub (q : ℚ) : |rndQ q - q| ≤ (2 : ℚ) ^ (ulpExp q) / 2 := by
  unfold rndQ
  split
  · rename_i h; rw [h]; simp only [sub_self, abs_zero]; exact le_of_lt (half_pos (two_zpow_pos _))
  · have hp := two_zpow_pos (ulpExp q)
    have := abs_rne_sub (q / (2 : ℚ) ^ ulpExp q)
    have e : (rne (q / (2 : ℚ) ^ ulpExp q) : ℚ) * (2 : ℚ) ^ ulpExp q - q
        = ((rne (q / (2 : ℚ) ^ ulpExp q) : ℚ) - q / (2 : ℚ) ^ ulpExp q) * (2 : ℚ) ^ ulpExp q := by
      field_simp
    rw [e, abs_mul, abs_of_pos hp]
    calc _ ≤ 1 / 2 * (2 : ℚ) ^ ulpExp q := mul_le_mul_of_nonneg_right this (le_of_lt hp)
      _ = _ := by ring

/-- Relative error of rounding in the normal range. -/
theorem abs_rndQ_sub_le {q : ℚ} (h : (2 : ℚ) ^ (-1022 : ℤ) ≤ |q|) : |rndQ q - q| ≤ |q| / 2 ^ 53 := by
  have hq : 0 < |q| := lt_of_lt_of_le (two_zpow_pos _) h
  have hlog := le_log_of_le h
  have hu : ulpExp q = Int.log 2 |q| - 52 := by unfold ulpExp; omega
  have h1 := abs_rndQ_sub q
  rw [hu] at h1
  have h2 := zpow_log_le hq
  have e : (2 : ℚ) ^ (Int.log 2 |q| - 52) = (2 : ℚ) ^ (Int.log 2 |q|) / 2 ^ 52 := by
    rw [zpow_sub₀ (by norm_num)]; norm_num
  rw [e] at h1
  calc _ ≤ _ := h1
    _ = (2 : ℚ) ^ (Int.log 2 |q|) / 2 ^ 53 := by ring
    _ ≤ |q| / 2 ^ 53 := by apply div_le_div_of_nonneg_right h2; positivity

/-- Absolute + relative error without range restriction. -/
theorem abs_rndQ_sub_le' (q : ℚ) : |rndQ q - q| ≤ |q| / 2 ^ 53 + (2 : ℚ) ^ (-1075 : ℤ) := by
  by_cases h : (2 : ℚ) ^ (-1022 : ℤ) ≤ |q|
  · have := abs_rndQ_sub_le h
    have h2 := two_zpow_pos (-1075)
    linarith
  · push Not at h
    by_cases h0 : q = 0
    · subst h0; simp only [rndQ_zero, sub_self, abs_zero, zero_div, zero_add]; exact le_of_lt (two_zpow_pos _)
    have hq : 0 < |q| := abs_pos.2 h0
    have hlog := log_le_of_lt hq h
    have hu : ulpExp q = -1074 := by unfold ulpExp; omega
    have h1 := abs_rndQ_sub q
    rw [hu] at h1
    have e : (2 : ℚ) ^ (-1074 : ℤ) / 2 = (2 : ℚ) ^ (-1075 : ℤ) := by
      rw [show (-1075 : ℤ) = -1074 - 1 by norm_num, zpow_sub₀ (by norm_num)]; norm_num
    rw [e] at h1
    have h3 : 0 ≤ |q| / 2 ^ 53 := by positivity
    linarith

theorem rnd_fin {q : ℚ} (h : |q| < (2 : ℚ) ^ (1023 : ℕ)) : rnd q = fin (rndQ q) := by
  have h1 : rndQ q ≤ (2 : ℚ) ^ (1023 : ℤ) := by
    rw [← rndQ_two_zpow (k := 1023) (by norm_num)]
    exact rndQ_mono (by have := (abs_lt.1 h).2; exact_mod_cast le_of_lt this)
  have h2 : -(2 : ℚ) ^ (1023 : ℤ) ≤ rndQ q := by
    rw [← rndQ_two_zpow (k := 1023) (by norm_num), ← rndQ_neg]
    exact rndQ_mono (by have := (abs_lt.1 h).1; exact_mod_cast le_of_lt this)
  have h3 : (2 : ℚ) ^ (1023 : ℤ) < (2 : ℚ) ^ (1024 : ℕ) := by
    rw [← zpow_natCast]; exact zpow_lt_zpow_right₀ (by norm_num) (by norm_num)
  unfold rnd
  have h4 : -(2 : ℚ) ^ (1024 : ℕ) < -(2 : ℚ) ^ (1023 : ℤ) := neg_lt_neg h3
  rw [if_neg (not_le.2 (lt_of_le_of_lt h1 h3)), if_neg (not_le.2 (lt_of_lt_of_le h4 h2))]

end Swc.F64
