/-
C16–C19: the percentage (`core/src/lib.rs:834-836`).

The specification is exact rational arithmetic: the reported number is compared with `100 * new / old - 100`.
-/
import Mathlib.Tactic.Linarith
import Mathlib.Tactic.NormNum
import Verif.Lemmas.F64
import Verif.Model.Compare

namespace Swc

open F64

/-- The rational computed by `percent` for a non-zero old weight. -/
def pq (old new : Nat) : ℚ := rndQ (rndQ (100 * rndQ (rndQ new / rndQ old)) - 100)

theorem rnd_nat_small {n : ℕ} (h : n ≤ 2 ^ 53) : rnd n = fin n := by
  rw [rnd_fin, rndQ_nat h]
  have h1 : |(n : ℚ)| = n := abs_of_nonneg (by positivity)
  rw [h1]
  calc (n : ℚ) ≤ 2 ^ 53 := by exact_mod_cast h
    _ < 2 ^ 1023 := pow_lt_pow_right₀ (by norm_num) (by norm_num)

theorem rnd_100 : rnd 100 = fin 100 := by
  have := rnd_nat_small (n := 100) (by norm_num)
  exact_mod_cast this

theorem rndQ_100 : rndQ 100 = 100 := by
  have := rndQ_nat (n := 100) (by norm_num)
  exact_mod_cast this

theorem rndQ_one : rndQ 1 = 1 := by
  have := rndQ_nat (n := 1) (by norm_num)
  exact_mod_cast this

theorem rndQ_le_pow {q : ℚ} {k : ℕ} (h : q ≤ 2 ^ k) : rndQ q ≤ 2 ^ k := by
  have h2 := rndQ_two_zpow (k := (k : ℤ)) (by omega)
  rw [zpow_natCast] at h2
  rw [← h2]
  exact rndQ_mono h

theorem one_le_rndQ {n : ℕ} (h : 0 < n) : 1 ≤ rndQ (n : ℚ) := by
  rw [← rndQ_one]
  exact rndQ_mono (by exact_mod_cast h)

theorem rndQ_nat_nonneg (n : ℕ) : 0 ≤ rndQ (n : ℚ) := rndQ_nonneg (by positivity)

theorem rndQ_nat_le {n : ℕ} (h : n < 2 ^ 128) : rndQ (n : ℚ) ≤ 2 ^ 128 :=
  rndQ_le_pow (by exact_mod_cast le_of_lt h)

theorem ofNat_fin {n : ℕ} (h : n < 2 ^ 128) : F64.ofNat n = fin (rndQ n) := by
  unfold F64.ofNat
  rw [rnd_fin]
  rw [abs_of_nonneg (by positivity)]
  calc (n : ℚ) < 2 ^ 128 := by exact_mod_cast h
    _ < 2 ^ 1023 := pow_lt_pow_right₀ (by norm_num) (by norm_num)

theorem rnd_fin' {q : ℚ} {k : ℕ} (h : |q| ≤ 2 ^ k) (hk : k < 1023) : rnd q = fin (rndQ q) :=
  rnd_fin (lt_of_le_of_lt h (pow_lt_pow_right₀ (by norm_num) hk))

theorem ratio_bounds {old new : ℕ} (ho : 0 < old) (hn' : new < 2 ^ 128) :
    0 ≤ rndQ (new : ℚ) / rndQ (old : ℚ) ∧ rndQ (new : ℚ) / rndQ (old : ℚ) ≤ 2 ^ 128 := by
  have h1 := one_le_rndQ ho
  have h2 := rndQ_nat_nonneg new
  have h3 := rndQ_nat_le hn'
  refine ⟨div_nonneg h2 (by linarith), ?_⟩
  rw [div_le_iff₀ (by linarith)]
  nlinarith

theorem prod_bounds {old new : ℕ} (ho : 0 < old) (hn' : new < 2 ^ 128) :
    0 ≤ 100 * rndQ (rndQ (new : ℚ) / rndQ (old : ℚ)) ∧ 100 * rndQ (rndQ (new : ℚ) / rndQ (old : ℚ)) ≤ 2 ^ 135 := by
  obtain ⟨h1, h2⟩ := ratio_bounds ho hn'
  have h3 := rndQ_nonneg h1
  have h4 := rndQ_le_pow h2
  refine ⟨by linarith, ?_⟩
  norm_num at h4 ⊢
  linarith

theorem percent_eq {old new : ℕ} (ho : 0 < old) (ho' : old < 2 ^ 128) (hn' : new < 2 ^ 128) :
    percent old new = fin (pq old new) := by
  unfold percent pq
  rw [rnd_100, ofNat_fin ho', ofNat_fin hn']
  have h1 := one_le_rndQ ho
  obtain ⟨r1, r2⟩ := ratio_bounds ho hn'
  obtain ⟨p1, p2⟩ := prod_bounds ho hn'
  have m1 := rndQ_nonneg p1
  have m2 := rndQ_le_pow p2
  have e1 : F64.div (fin (rndQ (new : ℚ))) (fin (rndQ (old : ℚ))) = fin (rndQ (rndQ (new : ℚ) / rndQ (old : ℚ))) := by
    simp only [F64.div]
    rw [if_neg (by linarith), rnd_fin' (k := 128) (by rw [abs_of_nonneg r1]; exact r2) (by norm_num)]
  rw [e1]
  have e2 : F64.mul (fin 100) (fin (rndQ (rndQ (new : ℚ) / rndQ (old : ℚ))))
      = fin (rndQ (100 * rndQ (rndQ (new : ℚ) / rndQ (old : ℚ)))) := by
    simp only [F64.mul]
    rw [rnd_fin' (k := 135) (by rw [abs_of_nonneg p1]; exact p2) (by norm_num)]
  rw [e2]
  simp only [F64.sub, F64.neg, F64.add]
  rw [← sub_eq_add_neg, rnd_fin' (k := 136) _ (by norm_num)]
  rw [abs_le]
  constructor
  · have : (0 : ℚ) < 2 ^ 136 - 100 := by norm_num
    linarith
  · have : (2 : ℚ) ^ 135 ≤ 2 ^ 136 := by norm_num
    linarith

theorem pq_self {x : ℕ} (h : 0 < x) : pq x x = 0 := by
  have h1 := one_le_rndQ h
  unfold pq
  rw [div_self (by linarith), rndQ_one, mul_one, rndQ_100, sub_self, rndQ_zero]

theorem pq_mono_new {old n n' : ℕ} (ho : 0 < old) (h : n ≤ n') : pq old n ≤ pq old n' := by
  have h1 := one_le_rndQ ho
  have h2 : rndQ (n : ℚ) ≤ rndQ (n' : ℚ) := rndQ_mono (by exact_mod_cast h)
  unfold pq
  apply rndQ_mono
  have : rndQ (100 * rndQ (rndQ (n : ℚ) / rndQ (old : ℚ))) ≤ rndQ (100 * rndQ (rndQ (n' : ℚ) / rndQ (old : ℚ))) := by
    apply rndQ_mono
    have := rndQ_mono (div_le_div_of_nonneg_right h2 (by linarith : (0 : ℚ) ≤ rndQ (old : ℚ)))
    linarith
  linarith

theorem pq_anti_old {o o' new : ℕ} (ho : 0 < o) (h : o ≤ o') : pq o' new ≤ pq o new := by
  have h1 := one_le_rndQ ho
  have h2 : rndQ (o : ℚ) ≤ rndQ (o' : ℚ) := rndQ_mono (by exact_mod_cast h)
  have h3 := rndQ_nat_nonneg new
  unfold pq
  apply rndQ_mono
  have : rndQ (100 * rndQ (rndQ (new : ℚ) / rndQ (o' : ℚ))) ≤ rndQ (100 * rndQ (rndQ (new : ℚ) / rndQ (o : ℚ))) := by
    apply rndQ_mono
    have := rndQ_mono (div_le_div_of_nonneg_left h3 (by linarith : (0 : ℚ) < rndQ (o : ℚ)) h2)
    linarith
  linarith

theorem F64.le_fin {a b : ℚ} : F64.le (fin a) (fin b) = true ↔ a ≤ b := by
  simp only [F64.le, F64.lt, F64.feq, Bool.or_eq_true, decide_eq_true_eq]
  exact le_iff_lt_or_eq.symm

/-! ### C16 -/

/-- C16, all u128 weights: the percentage never has the opposite sign. -/
theorem C16_sign_never_opposite (old new : ℕ) (ho : 0 < old) (ho' : old < 2 ^ 128) (hn' : new < 2 ^ 128) :
    ∃ p : ℚ, percent old new = fin p ∧ (old ≤ new → 0 ≤ p) ∧ (new ≤ old → p ≤ 0) := by
  refine ⟨_, percent_eq ho ho' hn', ?_, ?_⟩
  · intro h
    rw [← pq_self ho]
    exact pq_mono_new ho h
  · intro h
    rw [← pq_self ho]
    exact pq_mono_new ho h

theorem rndQ_gt_one {r : ℚ} (h : 1 + 1 / 2 ^ 53 < r) : 1 + 1 / 2 ^ 52 ≤ rndQ r := by
  rcases lt_or_ge r 2 with h2 | h2
  · have hr0 : (0 : ℚ) < r := by have : (0 : ℚ) < 1 + 1 / 2 ^ 53 := by norm_num
                                 linarith
    have hl : Int.log 2 |r| = 0 := by
      rw [abs_of_pos hr0]
      apply log_eq_of hr0
      · have : (0 : ℚ) < 1 / 2 ^ 53 := by norm_num
        norm_num at *; linarith
      · norm_num; linarith
    have hu : ulpExp r = -52 := by unfold ulpExp; rw [hl]; rfl
    unfold rndQ
    rw [if_neg (ne_of_gt hr0), hu]
    have e : r / (2 : ℚ) ^ (-52 : ℤ) = r * 2 ^ 52 := by
      rw [zpow_neg]; norm_num [div_eq_mul_inv]
    rw [e]
    have h3 := abs_rne_sub (r * 2 ^ 52)
    have h4 := (abs_le.1 h3).1
    have h5 : ((2 ^ 52 : ℤ) : ℚ) < (rne (r * 2 ^ 52) : ℚ) := by
      push_cast
      norm_num at h h4 ⊢
      linarith
    have h6 : (2 ^ 52 : ℤ) + 1 ≤ rne (r * 2 ^ 52) := by exact_mod_cast h5
    have h7 : ((2 ^ 52 : ℤ) + 1 : ℚ) ≤ (rne (r * 2 ^ 52) : ℚ) := by exact_mod_cast h6
    rw [zpow_neg]
    norm_num at h7 ⊢
    linarith
  · have : rndQ 2 ≤ rndQ r := rndQ_mono h2
    have e2 : rndQ 2 = 2 := by
      have := rndQ_nat (n := 2) (by norm_num)
      exact_mod_cast this
    rw [e2] at this
    norm_num
    linarith

theorem rndQ_lt_one {r : ℚ} (h : r ≤ 1 - 1 / 2 ^ 53) : rndQ r ≤ 1 - 1 / 2 ^ 53 := by
  have e : ((2 ^ 53 - 1 : ℤ) : ℚ) * (2 : ℚ) ^ (-53 : ℤ) = 1 - 1 / 2 ^ 53 := by
    rw [zpow_neg]; norm_num
  have := rndQ_exact (n := 2 ^ 53 - 1) (e := -53) (by norm_num) (by norm_num)
  rw [e] at this
  rw [← this]
  exact rndQ_mono h

theorem ulpExp_100ish {q : ℚ} (h1 : 64 ≤ q) (h2 : q < 128) : ulpExp q = -46 := by
  have hq : 0 < q := by linarith
  have hl : Int.log 2 |q| = 6 := by
    rw [abs_of_pos hq]
    apply log_eq_of hq <;> norm_num <;> linarith
  unfold ulpExp; rw [hl]; rfl

theorem rndQ_above_100 : 100 + 1 / 2 ^ 46 ≤ rndQ (100 * (1 + 1 / 2 ^ 52)) := by
  have e : ((100 * 2 ^ 46 + 1 : ℤ) : ℚ) * (2 : ℚ) ^ (-46 : ℤ) = 100 + 1 / 2 ^ 46 := by
    rw [zpow_neg]; norm_num
  rw [← e]
  apply grid_le_rndQ
  · exact le_of_eq (ulpExp_100ish (by norm_num) (by norm_num))
  · rw [e]; norm_num

theorem rndQ_below_100 : rndQ (100 * (1 - 1 / 2 ^ 53)) ≤ 100 - 1 / 2 ^ 46 := by
  have hu : ulpExp (100 * (1 - 1 / 2 ^ 53)) = -46 := ulpExp_100ish (by norm_num) (by norm_num)
  unfold rndQ
  rw [if_neg (by norm_num), hu]
  have e : (100 * (1 - 1 / 2 ^ 53) : ℚ) / (2 : ℚ) ^ (-46 : ℤ) = 100 * (1 - 1 / 2 ^ 53) * 2 ^ 46 := by
    rw [zpow_neg]; norm_num
  rw [e, rne_eq_of_abs_lt (n := 100 * 2 ^ 46 - 1) (by push_cast; rw [abs_lt]; constructor <;> norm_num)]
  rw [zpow_neg]; norm_num

theorem pq_pos {old new : ℕ} (ho : 0 < old) (ho' : old < 2 ^ 53) (hn' : new < 2 ^ 53) (h : old < new) : 0 < pq old new := by
  have e1 : rndQ (new : ℚ) = new := rndQ_nat hn'.le
  have e2 : rndQ (old : ℚ) = old := rndQ_nat ho'.le
  have hop : (0 : ℚ) < old := by exact_mod_cast ho
  have hr : 1 + 1 / 2 ^ 53 < (new : ℚ) / old := by
    rw [lt_div_iff₀ hop]
    have a1 : (old : ℚ) + 1 ≤ new := by exact_mod_cast h
    have a2 : (old : ℚ) < 2 ^ 53 := by exact_mod_cast ho'
    have a3 : (1 / 2 ^ 53 : ℚ) * old < 1 := by rw [one_div, inv_mul_lt_iff₀ (by norm_num), mul_one]; exact a2
    linarith
  have h1 := rndQ_gt_one hr
  have h2 : 100 + 1 / 2 ^ 46 ≤ rndQ (100 * rndQ ((new : ℚ) / old)) :=
    le_trans rndQ_above_100 (rndQ_mono (by linarith))
  unfold pq
  rw [e1, e2]
  have h3 : (2 : ℚ) ^ (-46 : ℤ) ≤ rndQ (rndQ (100 * rndQ ((new : ℚ) / old)) - 100) := by
    rw [← rndQ_two_zpow (k := -46) (by norm_num)]
    apply rndQ_mono
    rw [zpow_neg]
    norm_num at h2 ⊢
    linarith
  exact lt_of_lt_of_le (two_zpow_pos _) h3

theorem pq_neg {old new : ℕ} (ho : 0 < old) (ho' : old < 2 ^ 53) (hn' : new < 2 ^ 53) (h : new < old) : pq old new < 0 := by
  have e1 : rndQ (new : ℚ) = new := rndQ_nat hn'.le
  have e2 : rndQ (old : ℚ) = old := rndQ_nat ho'.le
  have hop : (0 : ℚ) < old := by exact_mod_cast ho
  have hr : (new : ℚ) / old ≤ 1 - 1 / 2 ^ 53 := by
    rw [div_le_iff₀ hop]
    have a1 : (new : ℚ) + 1 ≤ old := by exact_mod_cast h
    have a2 : (old : ℚ) < 2 ^ 53 := by exact_mod_cast ho'
    have a3 : (1 / 2 ^ 53 : ℚ) * old < 1 := by rw [one_div, inv_mul_lt_iff₀ (by norm_num), mul_one]; exact a2
    linarith
  have h1 := rndQ_lt_one hr
  have h2 : rndQ (100 * rndQ ((new : ℚ) / old)) ≤ 100 - 1 / 2 ^ 46 :=
    le_trans (rndQ_mono (by linarith)) rndQ_below_100
  unfold pq
  rw [e1, e2]
  have h3 : rndQ (rndQ (100 * rndQ ((new : ℚ) / old)) - 100) ≤ -(2 : ℚ) ^ (-46 : ℤ) := by
    rw [← rndQ_two_zpow (k := -46) (by norm_num), ← rndQ_neg]
    apply rndQ_mono
    rw [zpow_neg]
    norm_num at h2 ⊢
    linarith
  exact lt_of_le_of_lt h3 (neg_neg_of_pos (two_zpow_pos _))

/-- C16: below 2^53 the sign of the percentage is the sign of the change. -/
theorem C16_sign_exact (old new : ℕ) (ho : 0 < old) (ho' : old < 2 ^ 53) (hn' : new < 2 ^ 53) :
    ∃ p : ℚ, percent old new = fin p ∧ (0 < p ↔ old < new) ∧ (p = 0 ↔ old = new) ∧ (p < 0 ↔ new < old) := by
  have hlt : (2 : ℕ) ^ 53 < 2 ^ 128 := by norm_num
  refine ⟨_, percent_eq ho (lt_trans ho' hlt) (lt_trans hn' hlt), ?_⟩
  rcases lt_trichotomy old new with h | h | h
  · have := pq_pos ho ho' hn' h
    refine ⟨⟨fun _ => h, fun _ => this⟩, ⟨fun e => by linarith, fun e => by omega⟩, ⟨fun e => by linarith, fun e => by omega⟩⟩
  · subst h
    have := pq_self ho
    refine ⟨⟨fun e => by linarith, fun e => by omega⟩, ⟨fun _ => rfl, fun _ => this⟩, ⟨fun e => by linarith, fun e => by omega⟩⟩
  · have := pq_neg ho ho' hn' h
    refine ⟨⟨fun e => by linarith, fun e => by omega⟩, ⟨fun e => by linarith, fun e => by omega⟩, ⟨fun _ => h, fun _ => this⟩⟩

example : ∃ p : ℚ, percent 9007199254740990 9007199254740991 = fin p ∧ 0 < p := by
  obtain ⟨p, h1, h2, _⟩ := C16_sign_exact 9007199254740990 9007199254740991 (by norm_num) (by norm_num) (by norm_num)
  exact ⟨p, h1, h2.2 (by norm_num)⟩

/-- The bound 2^53 is needed: beyond it, different weights can be reported as 0 %. -/
theorem C16_sign_lost_above : percent (2 ^ 53) (2 ^ 53 + 1) = fin 0 := by decide +kernel

/-! ### C17 -/

/-- C17: raising the new weight never lowers the percentage. -/
theorem C17_monotone_new (old new new' : ℕ) (ho : 0 < old) (ho' : old < 2 ^ 128) (hn' : new' < 2 ^ 128) (h : new ≤ new') :
    F64.le (percent old new) (percent old new') = true := by
  rw [percent_eq ho ho' (lt_of_le_of_lt h hn'), percent_eq ho ho' hn', F64.le_fin]
  exact pq_mono_new ho h

/-- C17: raising the old weight never raises the percentage. -/
theorem C17_antitone_old (old old' new : ℕ) (ho : 0 < old) (ho' : old' < 2 ^ 128) (hn' : new < 2 ^ 128) (h : old ≤ old') :
    F64.le (percent old' new) (percent old new) = true := by
  rw [percent_eq (lt_of_lt_of_le ho h) ho' hn', percent_eq ho (lt_of_le_of_lt h ho') hn', F64.le_fin]
  exact pq_anti_old ho h

theorem pq_mono_ratio {o n o' n' : ℕ} (ho : 0 < o) (ho' : 0 < o') (h1 : o < 2 ^ 53) (h2 : n < 2 ^ 53) (h3 : o' < 2 ^ 53)
    (h4 : n' < 2 ^ 53) (h : n * o' ≤ n' * o) : pq o n ≤ pq o' n' := by
  have hop : (0 : ℚ) < o := by exact_mod_cast ho
  have hop' : (0 : ℚ) < o' := by exact_mod_cast ho'
  unfold pq
  rw [rndQ_nat h1.le, rndQ_nat h2.le, rndQ_nat h3.le, rndQ_nat h4.le]
  apply rndQ_mono
  have hr : (n : ℚ) / o ≤ n' / o' := by
    rw [div_le_div_iff₀ hop hop']
    exact_mod_cast h
  have : rndQ (100 * rndQ ((n : ℚ) / o)) ≤ rndQ (100 * rndQ ((n' : ℚ) / o')) := by
    apply rndQ_mono
    have := rndQ_mono hr
    linarith
  linarith

/-- C17: below 2^53, a larger exact ratio new/old (`n/o ≤ n'/o'`, cross-multiplied) never gets a smaller percentage. -/
theorem C17_monotone_ratio (o n o' n' : ℕ) (ho : 0 < o) (ho' : 0 < o') (h1 : o < 2 ^ 53) (h2 : n < 2 ^ 53) (h3 : o' < 2 ^ 53)
    (h4 : n' < 2 ^ 53) (h : n * o' ≤ n' * o) : F64.le (percent o n) (percent o' n') = true := by
  have hlt : (2 : ℕ) ^ 53 < 2 ^ 128 := by norm_num
  rw [percent_eq ho (lt_trans h1 hlt) (lt_trans h2 hlt), percent_eq ho' (lt_trans h3 hlt) (lt_trans h4 hlt), F64.le_fin]
  exact pq_mono_ratio ho ho' h1 h2 h3 h4 h

example : F64.le (percent 3 5) (percent 6 11) = true :=
  C17_monotone_ratio 3 5 6 11 (by norm_num) (by norm_num) (by norm_num) (by norm_num) (by norm_num) (by norm_num) (by norm_num)

/-! ### C18 -/

/-- C18: no change is exactly 0 %. -/
theorem C18_same (x : ℕ) (h : 0 < x) (h' : x < 2 ^ 128) : percent x x = fin 0 := by
  rw [percent_eq h h' h', pq_self h]

/-- C18: dropping to nothing is exactly -100 %. -/
theorem C18_to_zero (x : ℕ) (h : 0 < x) (h' : x < 2 ^ 128) : percent x 0 = fin (-100) := by
  rw [percent_eq h h' (by norm_num)]
  unfold pq
  simp only [Nat.cast_zero, rndQ_zero, zero_div, mul_zero, zero_sub, rndQ_neg, rndQ_100]

/-- C18: growing from nothing is +∞. -/
theorem C18_from_zero (n : ℕ) (h : 0 < n) (h' : n < 2 ^ 128) : percent 0 n = pinf := by
  unfold percent
  rw [rnd_100, ofNat_fin h', ofNat_fin (n := 0) (by norm_num)]
  have h1 := one_le_rndQ h
  simp only [Nat.cast_zero, rndQ_zero, F64.div, if_true, infSign]
  rw [if_pos (by linarith)]
  simp [F64.mul, infSign, F64.sub, F64.neg, F64.add]

/-- C18: from nothing to nothing is NaN. -/
theorem C18_zero_zero : percent 0 0 = nan := by
  unfold percent
  rw [rnd_100, ofNat_fin (n := 0) (by norm_num)]
  simp [F64.div, infSign, F64.mul, F64.sub, F64.add]

/-- C18: every other percentage is finite and at least -100. -/
theorem C18_finite (old new : ℕ) (ho : 0 < old) (ho' : old < 2 ^ 128) (hn' : new < 2 ^ 128) :
    ∃ p : ℚ, percent old new = fin p ∧ -100 ≤ p := by
  refine ⟨_, percent_eq ho ho' hn', ?_⟩
  have h1 := percent_eq ho ho' (new := 0) (by norm_num)
  rw [C18_to_zero old ho ho'] at h1
  injection h1 with h1
  rw [h1]
  exact pq_mono_new ho (Nat.zero_le _)

example : ∃ p : ℚ, percent 340282366920938463463374607431768211455 1 = fin p ∧ -100 ≤ p :=
  C18_finite _ _ (by norm_num) (by norm_num) (by norm_num)

/-! ### C19 -/

theorem rndQ_rel {q : ℚ} (h0 : 0 ≤ q) (h : q = 0 ∨ 1 / 2 ^ 200 ≤ q) :
    q * (1 - 1 / 2 ^ 53) ≤ rndQ q ∧ rndQ q ≤ q * (1 + 1 / 2 ^ 53) := by
  rcases h with h | h
  · subst h; simp
  · have hb : (2 : ℚ) ^ (-1022 : ℤ) ≤ |q| := by
      rw [abs_of_nonneg h0]
      refine le_trans ?_ h
      calc (2 : ℚ) ^ (-1022 : ℤ) ≤ (2 : ℚ) ^ (-200 : ℤ) := zpow_le_zpow_right₀ (by norm_num) (by norm_num)
        _ = 1 / 2 ^ 200 := by rw [zpow_neg]; norm_num
    have := abs_le.1 (abs_rndQ_sub_le hb)
    rw [abs_of_nonneg h0] at this
    constructor
    · have h1 := this.1
      rw [mul_sub, mul_one, mul_one_div]
      linarith
    · have h1 := this.2
      rw [mul_add, mul_one, mul_one_div]
      linarith

/-- C19: the percentage is within `2^-50 * (100*new/old + 100)` of the exact percentage. -/
theorem C19_accurate (old new : ℕ) (ho : 0 < old) (ho' : old < 2 ^ 128) (hn' : new < 2 ^ 128) :
    ∃ p : ℚ, percent old new = fin p ∧
      |p - (100 * (new : ℚ) / old - 100)| ≤ (100 * (new : ℚ) / old + 100) / 2 ^ 50 := by
  refine ⟨_, percent_eq ho ho' hn', ?_⟩
  have hop : (0 : ℚ) < old := by exact_mod_cast ho
  have hob : (old : ℚ) ≤ 2 ^ 128 := by exact_mod_cast ho'.le
  have hn0 : (0 : ℚ) ≤ new := by positivity
  have hnat : ∀ n : ℕ, (n : ℚ) = 0 ∨ 1 / 2 ^ 200 ≤ (n : ℚ) := by
    intro n
    rcases Nat.eq_zero_or_pos n with h | h
    · left; exact_mod_cast h
    · right
      have : (1 : ℚ) ≤ n := by exact_mod_cast h
      refine le_trans ?_ this
      norm_num
  obtain ⟨a1, a2⟩ := rndQ_rel hn0 (hnat new)
  obtain ⟨b1, b2⟩ := rndQ_rel hop.le (hnat old)
  have hB := one_le_rndQ ho
  unfold pq
  generalize hx : (new : ℚ) / old = x
  have hx0 : 0 ≤ x := by rw [← hx]; positivity
  have hxo : x * old = new := by rw [← hx]; field_simp
  have hx2 : 100 * (new : ℚ) / old = 100 * x := by rw [← hx]; ring
  rw [hx2]
  -- quotient of the converted weights
  have q1 : x * (1 - 2 / 2 ^ 53) ≤ rndQ (new : ℚ) / rndQ (old : ℚ) := by
    rw [le_div_iff₀ (by linarith)]
    have s1 : x * (1 - 2 / 2 ^ 53) * rndQ (old : ℚ) ≤ x * (1 - 2 / 2 ^ 53) * (old * (1 + 1 / 2 ^ 53)) :=
      mul_le_mul_of_nonneg_left b2 (mul_nonneg hx0 (by norm_num))
    refine le_trans s1 (le_trans ?_ a1)
    have : x * (1 - 2 / 2 ^ 53) * (old * (1 + 1 / 2 ^ 53)) = x * old * ((1 - 2 / 2 ^ 53) * (1 + 1 / 2 ^ 53)) := by ring
    rw [this, hxo]
    exact mul_le_mul_of_nonneg_left (by norm_num) hn0
  have q2 : rndQ (new : ℚ) / rndQ (old : ℚ) ≤ x * (1 + 3 / 2 ^ 53) := by
    rw [div_le_iff₀ (by linarith)]
    have s1 : x * (1 + 3 / 2 ^ 53) * (old * (1 - 1 / 2 ^ 53)) ≤ x * (1 + 3 / 2 ^ 53) * rndQ (old : ℚ) :=
      mul_le_mul_of_nonneg_left b1 (mul_nonneg hx0 (by norm_num))
    refine le_trans (le_trans a2 ?_) s1
    have : x * (1 + 3 / 2 ^ 53) * (old * (1 - 1 / 2 ^ 53)) = x * old * ((1 + 3 / 2 ^ 53) * (1 - 1 / 2 ^ 53)) := by ring
    rw [this, hxo]
    exact mul_le_mul_of_nonneg_left (by norm_num) hn0
  have hxl : x = 0 ∨ 1 / 2 ^ 128 ≤ x := by
    rcases Nat.eq_zero_or_pos new with h | h
    · left; rw [← hx, h]; simp
    · right
      rw [← hx, le_div_iff₀ hop]
      have : (1 : ℚ) ≤ new := by exact_mod_cast h
      refine le_trans ?_ this
      rw [div_mul_eq_mul_div, one_mul, div_le_one (by norm_num)]
      exact hob
  generalize rndQ (new : ℚ) / rndQ (old : ℚ) = q at q1 q2
  have q0 : 0 ≤ q := le_trans (mul_nonneg hx0 (by norm_num)) q1
  have hq : q = 0 ∨ 1 / 2 ^ 200 ≤ q := by
    rcases hxl with h | h
    · left; rw [h] at q1 q2; simp at q1 q2; linarith
    · right
      refine le_trans ?_ q1
      refine le_trans ?_ (mul_le_mul_of_nonneg_right h (by norm_num))
      norm_num
  obtain ⟨r1, r2⟩ := rndQ_rel q0 hq
  have r0 := rndQ_nonneg q0
  generalize rndQ q = r at r1 r2 r0
  have hr : 100 * r = 0 ∨ 1 / 2 ^ 200 ≤ 100 * r := by
    rcases hxl with h | h
    · left; rw [h] at q1 q2; simp at q1 q2
      have : q = 0 := by linarith
      rw [this] at r2; simp at r2; linarith
    · right
      have t1 : 1 / 2 ^ 128 * (1 - 2 / 2 ^ 53) ≤ q :=
        le_trans (mul_le_mul_of_nonneg_right h (by norm_num)) q1
      have t2 := le_trans (mul_le_mul_of_nonneg_right t1 (by norm_num : (0 : ℚ) ≤ 1 - 1 / 2 ^ 53)) r1
      have t3 : (1 / 2 ^ 200 : ℚ) ≤ 1 / 2 ^ 128 * (1 - 2 / 2 ^ 53) * (1 - 1 / 2 ^ 53) := by norm_num
      linarith
  obtain ⟨m1, m2⟩ := rndQ_rel (by linarith : 0 ≤ 100 * r) hr
  have m0 := rndQ_nonneg (by linarith : 0 ≤ 100 * r)
  generalize rndQ (100 * r) = m at m1 m2 m0
  have l1 : 100 * x * (1 - 4 / 2 ^ 53) ≤ m := by
    norm_num at q1 r1 m1 ⊢
    linarith
  have l2 : m ≤ 100 * x * (1 + 6 / 2 ^ 53) := by
    norm_num at q2 r2 m2 ⊢
    linarith
  have hs := abs_rndQ_sub_le' (m - 100)
  have hsmall : (2 : ℚ) ^ (-1075 : ℤ) ≤ 1 / 2 ^ 53 := by
    calc (2 : ℚ) ^ (-1075 : ℤ) ≤ (2 : ℚ) ^ (-53 : ℤ) := zpow_le_zpow_right₀ (by norm_num) (by norm_num)
      _ = 1 / 2 ^ 53 := by rw [zpow_neg]; norm_num
  have habs : |m - 100| ≤ m + 100 := by rw [abs_le]; constructor <;> linarith
  have hs2 : |rndQ (m - 100) - (m - 100)| ≤ (m + 101) / 2 ^ 53 := by
    refine le_trans hs ?_
    have : |m - 100| / 2 ^ 53 ≤ (m + 100) / 2 ^ 53 := div_le_div_of_nonneg_right habs (by norm_num)
    have e : (m + 101) / 2 ^ 53 = (m + 100) / 2 ^ 53 + 1 / 2 ^ 53 := by ring
    rw [e]; linarith
  have hs3 := abs_le.1 hs2
  generalize rndQ (m - 100) = p at hs3
  rw [abs_le]
  norm_num at l1 l2 hs3 ⊢
  constructor <;> linarith [hs3.1, hs3.2]

example : ∃ p : ℚ, percent 3 10 = fin p ∧ |p - (100 * (10 : ℚ) / 3 - 100)| ≤ (100 * (10 : ℚ) / 3 + 100) / 2 ^ 50 := by
  exact_mod_cast C19_accurate 3 10 (by norm_num) (by norm_num) (by norm_num)

end Swc
