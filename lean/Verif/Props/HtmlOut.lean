/-
C57: order of the relative column.  C58: the absolute column.  C59: colours of the web page.
-/
import Verif.Model.Html
import Verif.Spec.Output
import Verif.Props.WorstCase
import Verif.Props.Format

namespace Swc

open Spec F64

/-- What `compare_extrinsics` reports about a call present in both versions is `Computed`, provided its weights are `u128` numbers (which the
types of the code guarantee). -/
theorem C57_reports_are_computed (b : Build) (ho : HashOrder) (old new : SimpleExtrinsic) (params : CompareParams) (r : TermChange)
    (h : compareExtrinsics b ho (some old) (some new) params = .ok r) (h1 : ∀ v, r.oldV = some v → v < 2 ^ 128)
    (h2 : ∀ v, r.newV = some v → v < 2 ^ 128) : Computed r := by
  obtain ⟨_, ⟨_, ho', hn', hp⟩, _⟩ := C25_reported_is_corner b ho _ _ params r h
  obtain ⟨o, eo, _⟩ := ho'
  obtain ⟨n, en, _⟩ := hn'
  rw [eo, en] at hp
  exact ⟨o, n, eo, en, h1 o eo, h2 n en, hp⟩

/-! ### C57 -/

/-- C57: Added sorts above every row that exists in both versions, whatever its percentage. -/
theorem C57_added_top (a c : TermChange) (ha : a.change = .added) (hc : c.change = .changed ∨ c.change = .unchanged) :
    orderPercent c < orderPercent a := by
  unfold orderPercent
  rw [ha]
  have e2 : i128Max = 2 ^ 127 - 1 := rfl
  rcases hc with hc | hc <;> rw [hc] <;> dsimp only <;> rw [e2]
  · have : u32Max = 2 ^ 32 - 1 := rfl
    have := min_le_right (toI128 (F64.mul c.percent (rnd 1000))) u32Max
    omega
  · norm_num

theorem toI128_mono {x y : F64} (h : F64.le x y = true) : toI128 x ≤ toI128 y := by
  have e1 : i128Min = -2 ^ 127 := rfl
  have e2 : i128Max = 2 ^ 127 - 1 := rfl
  cases x with
  | nan => simp [F64.le, F64.lt, F64.feq] at h
  | ninf => cases y <;> simp only [toI128, F64.le, F64.lt, F64.feq, e1, e2] at h ⊢ <;> first | omega | (simp at h)
  | pinf => cases y <;> simp only [toI128, F64.le, F64.lt, F64.feq, e1, e2] at h ⊢ <;> first | omega | (simp at h)
  | fin p =>
    cases y with
    | nan => simp [F64.le, F64.lt, F64.feq] at h
    | ninf => simp [F64.le, F64.lt, F64.feq] at h
    | pinf => simp only [toI128, e1, e2]; omega
    | fin q =>
      have := truncQ_mono (F64.le_fin.1 h)
      simp only [toI128]
      omega

theorem rnd_mono {p q : ℚ} (h : p ≤ q) : F64.le (rnd p) (rnd q) = true := by
  have hr := rndQ_mono h
  unfold rnd
  have hpos : -(2 : ℚ) ^ 1024 < 2 ^ 1024 := neg_lt_self (by positivity)
  generalize (2 : ℚ) ^ 1024 = B at *
  by_cases h1 : B ≤ rndQ p
  · rw [if_pos h1, if_pos (h1.trans hr)]; decide
  · rw [if_neg h1]
    by_cases h2 : B ≤ rndQ q
    · rw [if_pos h2]
      split <;> simp [F64.le, F64.lt]
    · rw [if_neg h2]
      by_cases h3 : rndQ p ≤ -B
      · rw [if_pos h3]
        split <;> simp [F64.le, F64.lt, F64.feq]
      · rw [if_neg h3, if_neg (fun h4 => h3 (hr.trans h4))]
        exact F64.le_fin.2 hr

theorem rank_mono_all {x y : F64} (h : F64.le x y = true) : rank x ≤ rank y := by
  unfold rank
  rw [rnd_1000]
  apply toI128_mono
  have hs : infSign 1000 = pinf := by decide +kernel
  cases x with
  | nan => simp [F64.le, F64.lt, F64.feq] at h
  | ninf =>
    simp only [F64.mul, hs, F64.neg]
    cases y with
    | nan => simp [F64.le, F64.lt, F64.feq] at h
    | ninf => simp [F64.mul, hs, F64.neg, F64.le, F64.lt, F64.feq]
    | pinf => simp [F64.mul, hs, F64.le, F64.lt]
    | fin q =>
      simp only [F64.mul, rnd]
      split
      · simp [F64.le, F64.lt]
      · split <;> simp [F64.le, F64.lt, F64.feq]
  | pinf =>
    cases y with
    | nan => simp [F64.le, F64.lt, F64.feq] at h
    | ninf => simp [F64.le, F64.lt, F64.feq] at h
    | pinf => simp [F64.mul, hs, F64.le, F64.lt, F64.feq]
    | fin q => simp [F64.le, F64.lt, F64.feq] at h
  | fin p =>
    cases y with
    | nan => simp [F64.le, F64.lt, F64.feq] at h
    | ninf => simp [F64.le, F64.lt, F64.feq] at h
    | pinf =>
      simp only [F64.mul, hs, rnd]
      split
      · simp [F64.le, F64.lt, F64.feq]
      · split <;> simp [F64.le, F64.lt]
    | fin q =>
      simp only [F64.mul]
      exact rnd_mono (by have := F64.le_fin.1 h; linarith)

theorem orderPercent_changed {c : TermChange} (h : c.change = .changed) : orderPercent c = min (rank c.percent) u32Max := by
  unfold orderPercent rank
  rw [h]

/-- C57: among changed rows the key grows with the percentage. -/
theorem C57_monotone (c d : TermChange) (hc : c.change = .changed) (hd : d.change = .changed)
    (h : F64.le c.percent d.percent = true) : orderPercent c ≤ orderPercent d := by
  rw [orderPercent_changed hc, orderPercent_changed hd]
  have := rank_mono_all h
  omega

/-- The percentage of two `u128` weights has rank at least -100000. -/
theorem rank_percent_ge {o n : ℕ} (ho : o < 2 ^ 128) (hn : n < 2 ^ 128) : -100000 ≤ rank (percent o n) := by
  rcases Nat.eq_zero_or_pos o with rfl | h0
  · rcases Nat.eq_zero_or_pos n with rfl | h1
    · rw [C18_zero_zero]; decide +kernel
    · rw [C18_from_zero n h1 hn]; decide +kernel
  · obtain ⟨p, e, hp⟩ := C18_finite o n h0 ho hn
    have e0 : rank (fin (-100)) = -100000 := by decide +kernel
    rw [e, ← e0]
    exact rank_mono_all (F64.le_fin.2 hp)

/-- C57: Removed sorts below every row that exists in both versions. -/
theorem C57_removed_bottom (a c : TermChange) (ha : a.change = .removed)
    (hc : (c.change = .changed ∧ Computed c) ∨ c.change = .unchanged) : orderPercent a < orderPercent c := by
  have ea : orderPercent a = -2 ^ 127 := by unfold orderPercent; rw [ha]; rfl
  rw [ea]
  rcases hc with ⟨hc, o, n, _, _, ho, hn, hp⟩ | hc
  · rw [orderPercent_changed hc, hp]
    have h1 := rank_percent_ge ho hn
    have h2 : u32Max = 2 ^ 32 - 1 := rfl
    rw [h2]
    omega
  · unfold orderPercent
    rw [hc]
    norm_num

/-- The hypothesis is needed: a percentage of minus infinity (which no two weights have) would tie with Removed. -/
theorem C57_removed_needs_computed (c a : TermChange) (hc : c.change = .changed) (hp : c.percent = ninf) (ha : a.change = .removed) :
    orderPercent c = orderPercent a := by
  have ea : orderPercent a = i128Min := by unfold orderPercent; rw [ha]
  rw [orderPercent_changed hc, hp, ea]
  decide +kernel

theorem rndQ_le_small {q : ℚ} {n : ℤ} (hn : |n| ≤ 2 ^ 53) (h : q ≤ n) : rndQ q ≤ n := by
  have := rndQ_mono h
  rwa [rndQ_int hn] at this

/-- C57: percentages at least 0.003 apart, up to 4294967 %, have different keys in the right order. -/
theorem C57_distinguishes (c d : TermChange) (hc : c.change = .changed) (hd : d.change = .changed) (p q : ℚ)
    (hp : c.percent = fin p) (hq : d.percent = fin q) (h1 : -4294967 ≤ p) (h2 : q ≤ 4294967) (h : p + 3 / 1000 ≤ q) :
    orderPercent c < orderPercent d := by
  have hB : (4294967 : ℚ) ≤ 2 ^ 100 := by norm_num
  have bp : |p| ≤ 4294967 := abs_le.2 ⟨by linarith, by linarith⟩
  have bq : |q| ≤ 4294967 := abs_le.2 ⟨by linarith, by linarith⟩
  rw [orderPercent_changed hc, orderPercent_changed hd, hp, hq, rank_fin (bp.trans hB), rank_fin (bq.trans hB)]
  have hlt : truncQ (rndQ (p * 1000)) < truncQ (rndQ (q * 1000)) := by
    by_contra hcon
    have ht := truncQ_le_imp (not_lt.1 hcon)
    have hx := abs_le.1 (abs_rndQ_sub_le' (p * 1000))
    have hy := abs_le.1 (abs_rndQ_sub_le' (q * 1000))
    have htiny : (2 : ℚ) ^ (-1075 : ℤ) ≤ 1 / 2 ^ 60 := by
      rw [zpow_neg, ← one_div]
      apply one_div_le_one_div_of_le (by norm_num)
      exact_mod_cast pow_le_pow_right₀ (by norm_num : (1 : ℚ) ≤ 2) (by norm_num : 60 ≤ 1075)
    generalize (2 : ℚ) ^ (-1075 : ℤ) = tiny at *
    have e : ∀ x : ℚ, |x| ≤ 4294967 → |x * 1000| / 2 ^ 53 ≤ 1 / 1000 := by
      intro x hx
      rw [abs_mul, abs_of_pos (by norm_num : (0 : ℚ) < 1000), div_le_iff₀ (by norm_num)]
      norm_num
      linarith
    have ep := e p bp
    have eq := e q bq
    norm_num at htiny
    linarith [hx.1, hx.2, hy.1, hy.2]
  have hub : truncQ (rndQ (q * 1000)) ≤ 4294967000 := by
    have h3 : rndQ (q * 1000) ≤ ((4294967000 : ℤ) : ℚ) := rndQ_le_small (by norm_num) (by push_cast; linarith)
    have h4 := truncQ_mono h3
    have e : truncQ ((4294967000 : ℤ) : ℚ) = 4294967000 := by decide +kernel
    rwa [e] at h4
  have h2 : u32Max = 2 ^ 32 - 1 := rfl
  rw [h2]
  omega

/-- C57: a visible increase sorts above Unchanged, a visible decrease below. -/
theorem C57_around_unchanged (c u : TermChange) (hc : c.change = .changed) (hu : u.change = .unchanged) :
    (F64.le (fin (1 / 500)) c.percent = true → orderPercent u < orderPercent c) ∧
    (F64.le c.percent (fin (-(1 / 500))) = true → orderPercent c < orderPercent u) := by
  have e0 : orderPercent u = 0 := by unfold orderPercent; rw [hu]
  have h2 : u32Max = 2 ^ 32 - 1 := rfl
  rw [e0, orderPercent_changed hc, h2]
  constructor
  · intro h
    have h1 := rank_mono_all h
    have e : rank (fin (1 / 500)) = 2 := by decide +kernel
    rw [e] at h1
    omega
  · intro h
    have h1 := rank_mono_all h
    have e : rank (fin (-(1 / 500))) = -2 := by decide +kernel
    rw [e] at h1
    omega

/-- A row for examples. -/
def exRow (k : RelativeChange) (o n : Nat) : TermChange :=
  { old := some (.value o), oldV := some o, new := some (.value n), newV := some n, scope := [], percent := percent o n,
    change := k, method := .base }

/-- The limit is needed: increases by ten and by a hundred million percent get the same key. -/
theorem C57_capped : orderPercent (exRow .changed 1 100000) = orderPercent (exRow .changed 1 1000000) ∧
    F64.lt (exRow .changed 1 100000).percent (exRow .changed 1 1000000).percent = true := by decide +kernel

theorem exRow_computed (k : RelativeChange) (o n : Nat) (ho : o < 2 ^ 128) (hn : n < 2 ^ 128) : Computed (exRow k o n) :=
  ⟨o, n, rfl, rfl, ho, hn, rfl⟩

example : orderPercent (exRow .removed 5 0) < orderPercent (exRow .changed 340282366920938463463374607431768211455 0) :=
  C57_removed_bottom _ _ rfl (.inl ⟨rfl, exRow_computed _ _ _ (by norm_num) (by norm_num)⟩)
example : orderPercent (exRow .changed 0 340282366920938463463374607431768211455) < orderPercent (exRow .added 0 7) :=
  C57_added_top _ _ rfl (.inl rfl)
example : orderPercent (exRow .changed 100000 100003) ≤ orderPercent (exRow .changed 0 1) := C57_monotone _ _ rfl rfl (by decide +kernel)
example : orderPercent (exRow .changed 100000 100003) < orderPercent (exRow .changed 100000 100007) :=
  C57_distinguishes _ _ rfl rfl (pq 100000 100003) (pq 100000 100007) (percent_eq (by norm_num) (by norm_num) (by norm_num))
    (percent_eq (by norm_num) (by norm_num) (by norm_num)) (by decide +kernel) (by decide +kernel) (by decide +kernel)
example : orderPercent (exRow .unchanged 7 7) < orderPercent (exRow .changed 1000 1001) :=
  (C57_around_unchanged _ _ rfl rfl).1 (by decide +kernel)

/-! ### C58 -/

theorem absDiff_exact {b : Build} {c : TermChange} {o n : ℕ} (ho : c.oldV = some o) (hn : c.newV = some n) (bo : o < 2 ^ 127)
    (bn : n < 2 ^ 127) : absDiff b c = .ok ((n : ℤ) - o) := by
  unfold absDiff asI128 subI128
  rw [ho, hn]
  simp only [Res.unwrap, Res.bind_ok, if_pos bo, if_pos bn]
  have e1 : i128Min = -2 ^ 127 := rfl
  have e2 : i128Max = 2 ^ 127 - 1 := rfl
  rw [if_pos]
  rw [e1, e2]
  have : ((n : ℕ) : ℤ) < 2 ^ 127 := by exact_mod_cast bn
  have : ((o : ℕ) : ℤ) < 2 ^ 127 := by exact_mod_cast bo
  omega

/-- C58: the sort key of the absolute column is the exact difference, in debug and release builds. -/
theorem C58_key (b : Build) (c : TermChange) (o n : ℕ) (hc : c.change = .changed) (ho : c.oldV = some o) (hn : c.newV = some n)
    (bo : o < 2 ^ 127) (bn : n < 2 ^ 127) : orderAbs b c = .ok ((n : ℤ) - o) := by
  unfold orderAbs
  rw [hc]
  exact absDiff_exact ho hn bo bn

/-- C58: the text of the absolute column: the difference with its sign, green for a decrease and red for an increase. -/
theorem C58_text (b : Build) (c : TermChange) (unit : Dimension) (o n : ℕ) (hc : c.change = .changed) (ho : c.oldV = some o)
    (hn : c.newV = some n) (bo : o < 2 ^ 127) (bn : n < 2 ^ 127) :
    ∃ s, htmlColorAbs b c unit = .ok s ∧
      (n < o → ∃ text, GoodRendering (unitTable unit) (o - n) text ∧ Para (str% "green") (str% "-" ++ text) s) ∧
      (o < n → ∃ text, GoodRendering (unitTable unit) (n - o) text ∧ Para (str% "red") (str% "+" ++ text) s) ∧
      (o = n → s = str% "0") := by
  have good : ∀ v, v < 2 ^ 128 → GoodRendering (unitTable unit) v (unit.fmtValue v) := fun v hv => by
    have := C13_fmt_value unit v hv
    cases unit <;> exact this
  unfold htmlColorAbs
  rw [hc]
  dsimp only
  rw [absDiff_exact ho hn bo bn]
  refine ⟨_, rfl, ?_, ?_, ?_⟩
  · intro h
    refine ⟨unit.fmtValue (o - n), good _ (by omega), ?_⟩
    rw [if_pos (by omega), show ((n : ℤ) - o).natAbs = o - n by omega]
    simp [Para]
  · intro h
    refine ⟨unit.fmtValue (n - o), good _ (by omega), ?_⟩
    rw [if_neg (by omega), if_pos (by omega), show ((n : ℤ) - o).natAbs = n - o by omega]
    simp [Para]
  · rintro rfl
    rw [if_neg (by omega), if_neg (by omega)]

/-- C58: Added sorts at least as high, Removed lower than every change of weights below 2^127. -/
theorem C58_added_removed (b : Build) (a r c : TermChange) (o n : ℕ) (ha : a.change = .added) (hr : r.change = .removed)
    (hc : c.change = .changed) (ho : c.oldV = some o) (hn : c.newV = some n) (bo : o < 2 ^ 127) (bn : n < 2 ^ 127) :
    ∃ ka kr kc, orderAbs b a = .ok ka ∧ orderAbs b r = .ok kr ∧ orderAbs b c = .ok kc ∧ kr < kc ∧ kc ≤ ka := by
  refine ⟨i128Max, i128Min, _, by unfold orderAbs; rw [ha], by unfold orderAbs; rw [hr], C58_key b c o n hc ho hn bo bn, ?_, ?_⟩
  · have e1 : i128Min = -2 ^ 127 := rfl
    rw [e1]; omega
  · have e2 : i128Max = 2 ^ 127 - 1 := rfl
    rw [e2]; omega

/-- C58: in the absolute column every decrease sorts below and every increase above the rows without change, which are equal to a change by 0. -/
theorem C58_around_unchanged (b : Build) (c u : TermChange) (o n : ℕ) (hu : u.change = .unchanged) (hc : c.change = .changed) (ho : c.oldV = some o)
    (hn : c.newV = some n) (bo : o < 2 ^ 127) (bn : n < 2 ^ 127) :
    ∃ ku kc, orderAbs b u = .ok ku ∧ orderAbs b c = .ok kc ∧ (n < o ↔ kc < ku) ∧ (o < n ↔ ku < kc) := by
  refine ⟨0, _, by unfold orderAbs; rw [hu], C58_key b c o n hc ho hn bo bn, ?_, ?_⟩ <;> omega

/-- C58: the other kinds of change have no number in the absolute column. -/
theorem C58_kinds (b : Build) (c : TermChange) (unit : Dimension) :
    (c.change = .unchanged → ∃ s, htmlColorAbs b c unit = .ok s ∧ Para (str% "gray") (str% "Unchanged") s) ∧
    (c.change = .added → ∃ s, htmlColorAbs b c unit = .ok s ∧ Para (str% "orange") (str% "Added") s) ∧
    (c.change = .removed → ∃ s, htmlColorAbs b c unit = .ok s ∧ Para (str% "orange") (str% "Removed") s) := by
  refine ⟨fun h => ?_, fun h => ?_, fun h => ?_⟩ <;> (unfold htmlColorAbs; rw [h]; exact ⟨_, rfl, rfl⟩)

/-- The bound is needed: an increase from 0 to 2^127 is shown, and sorted, as a decrease. -/
theorem C58_false_above :
    orderAbs .release (exRow .changed 0 (2 ^ 127)) = .ok (-2 ^ 127) ∧
    ∃ text, (htmlColorAbs .release (exRow .changed 0 (2 ^ 127)) .time) = .ok (str% "<p style='color:green'>-" ++ text ++ str% "</p>") := by
  refine ⟨by decide +kernel, (Dimension.time).fmtValue (2 ^ 127), ?_⟩
  have h : absDiff .release (exRow .changed 0 (2 ^ 127)) = .ok (-2 ^ 127) := by decide +kernel
  show (absDiff .release (exRow .changed 0 (2 ^ 127)) >>= _) = _
  rw [h, Res.bind_ok, if_pos (by norm_num)]
  rfl

/-- … and a debug build panics for 2^127 against 2^127 - 1. -/
theorem C58_panic_above : orderAbs .debug (exRow .changed (2 ^ 127) (2 ^ 127 - 1)) = .panic := by decide +kernel

/-- The absolute columns never fail for a computed row in release builds. -/
theorem C58_release_total (c : TermChange) (unit : Dimension) (h : c.change = .changed → Computed c) :
    (∃ k, orderAbs .release c = .ok k) ∧ ∃ s, htmlColorAbs .release c unit = .ok s := by
  unfold orderAbs htmlColorAbs
  cases hc : c.change with
  | changed =>
    obtain ⟨o, n, ho, hn, _⟩ := h hc
    have : ∃ d, absDiff .release c = .ok d := by
      unfold absDiff subI128
      rw [ho, hn]
      simp only [Res.unwrap, Res.bind_ok]
      split <;> exact ⟨_, rfl⟩
    obtain ⟨d, hd⟩ := this
    dsimp only
    rw [hd]
    exact ⟨⟨_, rfl⟩, ⟨_, rfl⟩⟩
  | unchanged => exact ⟨⟨_, rfl⟩, ⟨_, rfl⟩⟩
  | added => exact ⟨⟨_, rfl⟩, ⟨_, rfl⟩⟩
  | removed => exact ⟨⟨_, rfl⟩, ⟨_, rfl⟩⟩

example : orderAbs .debug (exRow .changed 1000 400) = .ok (-600) := C58_key .debug _ 1000 400 rfl rfl rfl (by norm_num) (by norm_num)
example : ∃ ku kc, orderAbs .debug (exRow .unchanged 7 7) = .ok ku ∧ orderAbs .debug (exRow .changed 1000 400) = .ok kc ∧ kc < ku :=
  let ⟨ku, kc, h1, h2, h3, _⟩ := C58_around_unchanged .debug (exRow .changed 1000 400) (exRow .unchanged 7 7) 1000 400 rfl rfl rfl rfl
    (by norm_num) (by norm_num)
  ⟨ku, kc, h1, h2, h3.1 (by norm_num)⟩
example : ∃ s, htmlColorAbs .debug (exRow .changed 400 1000) .time = .ok s ∧ Para (str% "red") (str% "+600ps") s :=
  ⟨str% "<p style='color:red'>+600ps</p>", by decide +kernel, rfl⟩

/-! ### C59, web page -/

theorem shows_fmt2Nonneg {q : ℚ} (h : 0 ≤ q) : ShowsQuantity q (fmt2Nonneg q) := by
  refine ⟨_, readDec_fmt2Nonneg q, ?_, rne_hundred q h⟩
  unfold fracDigits
  have e := takeWhile_append_of_all (b := []) (fmt2Nonneg_numChars q)
  rw [List.append_nil] at e
  rw [e, List.takeWhile_nil, List.append_nil, fmt2Nonneg_dropWhile]
  rfl

/-- The sign of a percentage and the direction of the change, all `u128` weights. -/
theorem percent_sign {o n : ℕ} (ho : o < 2 ^ 128) (hn : n < 2 ^ 128) :
    (F64.lt (percent o n) (fin 0) = true → n < o) ∧ (F64.lt (fin 0) (percent o n) = true → o < n) := by
  rcases Nat.eq_zero_or_pos o with rfl | h0
  · rcases Nat.eq_zero_or_pos n with rfl | h1
    · rw [C18_zero_zero]; simp [F64.lt]
    · rw [C18_from_zero n h1 hn]; simp [F64.lt, h1]
  · obtain ⟨p, e, h1, h2⟩ := C16_sign_never_opposite o n h0 ho hn
    rw [e]
    simp only [F64.lt, decide_eq_true_eq]
    exact ⟨fun h => by_contra fun hc => absurd (h1 (not_lt.1 hc)) (not_le.2 h), fun h => by_contra fun hc => absurd (h2 (not_lt.1 hc)) (not_le.2 h)⟩

/-- … and the converse below 2^53. -/
theorem percent_sign_exact {o n : ℕ} (ho : o < 2 ^ 53) (hn : n < 2 ^ 53) :
    (F64.lt (percent o n) (fin 0) = true ↔ n < o) ∧ (F64.lt (fin 0) (percent o n) = true ↔ o < n) := by
  have hlt : (2 : ℕ) ^ 53 < 2 ^ 128 := by norm_num
  rcases Nat.eq_zero_or_pos o with rfl | h0
  · rcases Nat.eq_zero_or_pos n with rfl | h1
    · rw [C18_zero_zero]; simp [F64.lt]
    · rw [C18_from_zero n h1 (lt_trans hn hlt)]; simp [F64.lt, h1]
  · obtain ⟨p, e, h1, _, h2⟩ := C16_sign_exact o n h0 ho hn
    rw [e]
    simp only [F64.lt, decide_eq_true_eq]
    exact ⟨h2, h1⟩

/-- C59, web: the cell of a percentage.  A negative one is green with a minus, a positive one red with a plus, zero and NaN are plain; the
number is the magnitude to two digits. -/
theorem C59_web_percent (p : F64) :
    (F64.lt p (fin 0) = true → ∃ num, Para (str% "green") (str% "-" ++ num ++ str% "%") (htmlColorPercent p .changed) ∧
      ∀ q, p = fin q → ShowsQuantity (-q) num) ∧
    (F64.lt (fin 0) p = true → ∃ num, Para (str% "red") (str% "+" ++ num ++ str% "%") (htmlColorPercent p .changed) ∧
      ∀ q, p = fin q → ShowsQuantity q num) ∧
    (p = fin 0 → htmlColorPercent p .changed = str% "0") ∧ (p = nan → htmlColorPercent p .changed = str% "NaN") := by
  refine ⟨?_, ?_, ?_, ?_⟩
  · intro h
    refine ⟨F64.fmt2 (F64.abs p), ?_, ?_⟩
    · unfold htmlColorPercent
      dsimp only
      rw [if_pos h]
      simp [Para]
    · rintro q rfl
      have hq : q < 0 := by simpa [F64.lt] using h
      simp only [F64.abs, F64.fmt2]
      rw [if_neg (not_lt.2 (abs_nonneg q)), abs_of_neg hq]
      exact shows_fmt2Nonneg (by linarith)
  · intro h
    have hn : ¬ F64.lt p (fin 0) = true := by
      cases p with
      | nan => simp [F64.lt] at h
      | ninf => simp [F64.lt] at h
      | pinf => simp [F64.lt]
      | fin q =>
        simp only [F64.lt, decide_eq_true_eq] at h ⊢
        linarith
    refine ⟨F64.fmt2 (F64.abs p), ?_, ?_⟩
    · unfold htmlColorPercent
      dsimp only
      rw [if_neg hn, if_pos h]
      simp [Para]
    · rintro q rfl
      have hq : 0 < q := by simpa [F64.lt] using h
      simp only [F64.abs, F64.fmt2]
      rw [if_neg (not_lt.2 (abs_nonneg q)), abs_of_pos hq]
      exact shows_fmt2Nonneg hq.le
  · rintro rfl; decide +kernel
  · rintro rfl; rfl

/-- C59, web: the other kinds of change do not depend on the number. -/
theorem C59_web_kinds (p : F64) : Para (str% "gray") (str% "Unchanged") (htmlColorPercent p .unchanged) ∧
    Para (str% "orange") (str% "Added") (htmlColorPercent p .added) ∧
    Para (str% "orange") (str% "Removed") (htmlColorPercent p .removed) := ⟨rfl, rfl, rfl⟩

theorem lt_asymm' {p q : F64} (h : F64.lt p q = true) : F64.lt q p = false := by
  cases p <;> cases q <;> simp [F64.lt] at h ⊢
  exact h.le

/-- The colour of a changed cell decides the sign of the percentage. -/
theorem html_color_iff (p : F64) :
    ((∃ text, Para (str% "green") text (htmlColorPercent p .changed)) ↔ F64.lt p (fin 0) = true) ∧
    ((∃ text, Para (str% "red") text (htmlColorPercent p .changed)) ↔ F64.lt (fin 0) p = true) := by
  obtain ⟨h1, h2, _, _⟩ := C59_web_percent p
  constructor
  · constructor
    · rintro ⟨text, h⟩
      by_contra hc
      by_cases h0 : F64.lt (fin 0) p = true
      · obtain ⟨num, h', _⟩ := h2 h0
        rw [Para] at h h'
        rw [h] at h'
        simp at h'
      · unfold htmlColorPercent at h
        dsimp only at h
        rw [if_neg hc, if_neg h0] at h
        cases p <;> simp [Para] at h
    · intro h
      obtain ⟨num, h, _⟩ := h1 h
      exact ⟨_, h⟩
  · constructor
    · rintro ⟨text, h⟩
      by_contra hc
      by_cases h0 : F64.lt p (fin 0) = true
      · obtain ⟨num, h', _⟩ := h1 h0
        rw [Para] at h h'
        rw [h] at h'
        simp at h'
      · unfold htmlColorPercent at h
        dsimp only at h
        rw [if_neg h0, if_neg hc] at h
        cases p <;> simp [Para] at h
    · intro h
      obtain ⟨num, h, _⟩ := h2 h
      exact ⟨_, h⟩

/-- C59, web: a changed row of two `u128` weights is green only if the weight decreased and red only if it increased. -/
theorem C59_web_direction (o n : ℕ) (ho : o < 2 ^ 128) (hn : n < 2 ^ 128) :
    ((∃ text, Para (str% "green") text (htmlColorPercent (percent o n) .changed)) → n < o) ∧
    ((∃ text, Para (str% "red") text (htmlColorPercent (percent o n) .changed)) → o < n) := by
  obtain ⟨h1, h2⟩ := html_color_iff (percent o n)
  rw [h1, h2]
  exact percent_sign ho hn

/-- C59, web: below 2^53 a changed row is green exactly if the weight decreased and red exactly if it increased. -/
theorem C59_web_exact (o n : ℕ) (ho : o < 2 ^ 53) (hn : n < 2 ^ 53) :
    ((∃ text, Para (str% "green") text (htmlColorPercent (percent o n) .changed)) ↔ n < o) ∧
    ((∃ text, Para (str% "red") text (htmlColorPercent (percent o n) .changed)) ↔ o < n) := by
  obtain ⟨h1, h2⟩ := html_color_iff (percent o n)
  rw [h1, h2]
  exact percent_sign_exact ho hn

example : ∃ text, Para (str% "green") text (htmlColorPercent (percent 10 9) .changed) :=
  (C59_web_exact 10 9 (by norm_num) (by norm_num)).1.2 (by norm_num)
example : htmlColorPercent (percent 10 9) .changed = str% "<p style='color:green'>-10.00%</p>" := by decide +kernel

/-! ### C67: the printed percentage -/

/-- C67, web: the number shown for a changed row is within half a hundredth, and the rounding error of binary64, of the exact relative
change in percent. -/
theorem C67_web (o n : ℕ) (h0 : 0 < o) (ho : o < 2 ^ 53) (hn : n < 2 ^ 53) (hne : o ≠ n) :
    ∃ sign num v, (sign = str% "-" ↔ n < o) ∧ (sign = str% "+" ↔ o < n) ∧
      (∃ color, Para color (sign ++ num ++ str% "%") (htmlColorPercent (percent o n) .changed)) ∧ readDec num = some v ∧
      |v - (|100 * ((n : ℚ) - o) / o|)| ≤ 1 / 200 + (100 * (n : ℚ) / o + 100) / 2 ^ 50 := by
  have hlt : (2 : ℕ) ^ 53 < 2 ^ 128 := by norm_num
  obtain ⟨p, hp, hacc⟩ := C19_accurate o n h0 (lt_trans ho hlt) (lt_trans hn hlt)
  obtain ⟨s1, s2⟩ := percent_sign_exact ho hn
  obtain ⟨c1, c2, _, _⟩ := C59_web_percent (percent o n)
  have hop : (0 : ℚ) < o := by exact_mod_cast h0
  have eqn : 100 * ((n : ℚ) - o) / o = 100 * (n : ℚ) / o - 100 := by field_simp
  rcases lt_or_gt_of_ne hne with h | h
  · obtain ⟨num, hpara, hq⟩ := c2 (s2.2 h)
    obtain ⟨v, hv, _, hd⟩ := hq p hp
    refine ⟨str% "+", num, v, by simp [h.le], by simp [h], ⟨_, hpara⟩, hv, ?_⟩
    have hpos : 0 ≤ 100 * ((n : ℚ) - o) / o := by
      have : (o : ℚ) ≤ n := by exact_mod_cast h.le
      apply div_nonneg _ hop.le
      linarith
    rw [abs_of_nonneg hpos, eqn]
    rw [abs_le] at hd hacc ⊢
    constructor <;> linarith [hd.1, hd.2, hacc.1, hacc.2]
  · obtain ⟨num, hpara, hq⟩ := c1 (s1.2 h)
    obtain ⟨v, hv, _, hd⟩ := hq p hp
    refine ⟨str% "-", num, v, by simp [h], by simp [le_of_lt h], ⟨_, hpara⟩, hv, ?_⟩
    have hneg : 100 * ((n : ℚ) - o) / o ≤ 0 := by
      have : (n : ℚ) ≤ o := by exact_mod_cast le_of_lt h
      apply div_nonpos_of_nonpos_of_nonneg _ hop.le
      linarith
    rw [abs_of_nonpos hneg, eqn]
    rw [abs_le] at hd hacc ⊢
    constructor <;> linarith [hd.1, hd.2, hacc.1, hacc.2]

example : ∃ sign num v, (sign = str% "-" ↔ 999 < 1000) ∧ (sign = str% "+" ↔ 1000 < 999) ∧
      (∃ color, Para color (sign ++ num ++ str% "%") (htmlColorPercent (percent 1000 999) .changed)) ∧ readDec num = some v ∧
      |v - (|100 * (((999 : ℕ) : ℚ) - (1000 : ℕ)) / (1000 : ℕ)|)| ≤ 1 / 200 + (100 * ((999 : ℕ) : ℚ) / (1000 : ℕ) + 100) / 2 ^ 50 :=
  C67_web 1000 999 (by norm_num) (by norm_num) (by norm_num) (by norm_num)

end Swc
