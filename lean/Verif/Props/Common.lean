/-
C124: work that both versions have in common dilutes a change: the report comes closer to zero and never crosses it.
-/
import Verif.Props.Units

namespace Swc

open Spec Term F64 Std

theorem rank_zero : rank (.fin 0) = 0 := by decide +kernel

theorem rank_same (x : ℕ) (h : x < 2 ^ 128) : rank (percent x x) = 0 := by
  rcases Nat.eq_zero_or_pos x with rfl | h0
  · rw [C18_zero_zero, rank_nan]
  · rw [C18_same x h0 h, rank_zero]

/-- C124: adding the same number to both weights brings an increase closer to zero. -/
theorem C124_increase (o n k : ℕ) (h : o ≤ n) (hb : n + k < 2 ^ 53) :
    0 ≤ rank (percent (o + k) (n + k)) ∧ rank (percent (o + k) (n + k)) ≤ rank (percent o n) := by
  refine ⟨?_, ?_⟩
  · have := C122_rank_new (o + k) (o + k) (n + k) (by omega) (by omega) (by omega)
    rwa [rank_same _ (by omega)] at this
  · rcases Nat.eq_zero_or_pos o with rfl | h0
    · rcases Nat.eq_zero_or_pos n with rfl | h1
      · rw [rank_same _ (by omega), rank_same _ (by omega)]
      · rw [C18_from_zero n h1 (by omega)]; exact rank_le _
    · apply rank_mono_all
      rw [percent_eq (by omega) (by omega) (by omega), percent_eq h0 (by omega) (by omega), F64.le_fin]
      refine pq_mono_ratio (by omega) h0 (by omega) (by omega) (by omega) (by omega) ?_
      have := Nat.mul_le_mul_left k h
      rw [Nat.add_mul, Nat.mul_add, Nat.mul_comm n k]
      omega

/-- C124: and a decrease as well. -/
theorem C124_decrease (o n k : ℕ) (h : n ≤ o) (hb : o + k < 2 ^ 53) :
    rank (percent o n) ≤ rank (percent (o + k) (n + k)) ∧ rank (percent (o + k) (n + k)) ≤ 0 := by
  refine ⟨?_, ?_⟩
  · rcases Nat.eq_zero_or_pos o with rfl | h0
    · rw [Nat.le_zero.1 h, rank_same _ (by omega), rank_same _ (by omega)]
    · apply rank_mono_all
      rw [percent_eq h0 (by omega) (by omega), percent_eq (by omega) (by omega) (by omega), F64.le_fin]
      refine pq_mono_ratio h0 (by omega) (by omega) (by omega) (by omega) (by omega) ?_
      have := Nat.mul_le_mul_left k h
      rw [Nat.add_mul, Nat.mul_add, Nat.mul_comm n k]
      omega
  · have := C122_rank_new (o + k) (n + k) (o + k) (by omega) (by omega) (by omega)
    rwa [rank_same _ (by omega)] at this

namespace Spec

/-- At every point of the comparison, both versions weigh more by the same number, and less than 2^53. -/
def CommonWork (b : Build) (params : CompareParams) (old new old' new' : SimpleExtrinsic) : Prop :=
  ∀ s, Corner params.unit params.method (some old) (some new) s → ∀ o n, eval b old.term s = .ok o → eval b new.term s = .ok n →
    ∃ k, o + k < 2 ^ 53 ∧ n + k < 2 ^ 53 ∧ eval b old'.term s = .ok (o + k) ∧ eval b new'.term s = .ok (n + k)

end Spec

/-- C124: with work added to both versions, the reported change is between the former one and zero, for every method; the work may cost
different amounts at different points. -/
theorem C124_dilutes (b : Build) (ho ho' : HashOrder) (old new old' new' : SimpleExtrinsic) (params : CompareParams)
    (r r' : TermChange) (h : compareExtrinsics b ho (some old) (some new) params = .ok r)
    (h' : compareExtrinsics b ho' (some old') (some new') params = .ok r') (hp : SameCorners old new old' new')
    (hw : CommonWork b params old new old' new') :
    min (rank r.percent) 0 ≤ rank r'.percent ∧ rank r'.percent ≤ max (rank r.percent) 0 := by
  have at_ : ∀ s, Corner params.unit params.method (some old) (some new) s → ∀ q q', ChangeAt b (some old) (some new) s q →
      ChangeAt b (some old') (some new') s q' →
      (0 ≤ rank q'.percent ∧ rank q'.percent ≤ rank q.percent) ∨ (rank q.percent ≤ rank q'.percent ∧ rank q'.percent ≤ 0) := by
    rintro s hs q q' ⟨-, ⟨o, eo, vo⟩, ⟨n, en, vn⟩, ep⟩ ⟨-, ⟨o', eo', vo'⟩, ⟨n', en', vn'⟩, ep'⟩
    obtain ⟨k, bo, bn, wo, wn⟩ := hw s hs o n vo vn
    rw [wo] at vo'; cases vo'
    rw [wn] at vn'; cases vn'
    rw [ep, ep', eo, en, eo', en']
    rcases Nat.le_total o n with hle | hle
    · exact .inl (C124_increase o n k hle bn)
    · exact .inr (C124_decrease o n k hle bo)
  obtain ⟨k, ca, -⟩ := C25_reported_is_corner b ho _ _ params r h
  obtain ⟨k', ca', -⟩ := C25_reported_is_corner b ho' _ _ params r' h'
  obtain ⟨q, cq, mq⟩ := C25_maximal b ho old new params r h r'.scope ((corners_same hp).1 k')
  obtain ⟨q', cq', mq'⟩ := C25_maximal b ho' old' new' params r' h' r.scope ((corners_same hp).2 k)
  have e1 := at_ _ k _ _ ca cq'
  have e2 := at_ _ ((corners_same hp).1 k') _ _ cq ca'
  have m1 : rank q.percent ≤ rank r.percent := by rcases mq with mq | mq <;> omega
  have m2 : rank q'.percent ≤ rank r'.percent := by rcases mq' with mq' | mq' <;> omega
  omega

/-- The points stay the same if the added work has only components of the call. -/
theorem withWork_corners {old new : SimpleExtrinsic} {t : SimpleTerm} (hk : KnownVars old new t) :
    SameCorners old new (withWork old t) (withWork new t) := by
  refine ⟨fun x => ⟨?_, ?_⟩, rfl, rfl⟩
  · rintro ⟨⟨e, he | he, ho⟩, h⟩ <;> cases he
    · exact ⟨⟨_, .inl rfl, occurs_add.2 (.inl ho)⟩, h⟩
    · exact ⟨⟨_, .inr rfl, occurs_add.2 (.inl ho)⟩, h⟩
  · rintro ⟨⟨e, he | he, ho⟩, h⟩ <;> cases he <;> rcases occurs_add.1 ho with ho | ho
    · exact ⟨⟨_, .inl rfl, ho⟩, h⟩
    · rcases hk x ho with e | e | e
      · exact absurd e h.1
      · exact absurd e h.2
      · exact e
    · exact ⟨⟨_, .inr rfl, ho⟩, h⟩
    · rcases hk x ho with e | e | e
      · exact absurd e h.1
      · exact absurd e h.2
      · exact e

/-- C124: in particular if the same work is added to both equations. -/
theorem C124_same_work (b : Build) (ho ho' : HashOrder) (old new : SimpleExtrinsic) (t : SimpleTerm) (params : CompareParams)
    (r r' : TermChange) (h : compareExtrinsics b ho (some old) (some new) params = .ok r)
    (h' : compareExtrinsics b ho' (some (withWork old t)) (some (withWork new t)) params = .ok r') (hk : KnownVars old new t)
    (hb : ∀ s, Corner params.unit params.method (some old) (some new) s → ∀ e n k, e = old ∨ e = new → eval b e.term s = .ok n →
      eval b t s = .ok k → n + k < 2 ^ 53) :
    min (rank r.percent) 0 ≤ rank r'.percent ∧ rank r'.percent ≤ max (rank r.percent) 0 := by
  refine C124_dilutes b ho ho' old new _ _ params r r' h h' (withWork_corners hk) fun s hs o n vo vn => ?_
  obtain ⟨q, ⟨-, ⟨o', -, vo'⟩, -, -⟩, -⟩ := C25_maximal b ho' _ _ params r' h' s ((corners_same (withWork_corners hk)).2 hs)
  have ht : ∃ k, eval b t s = .ok k := by
    rw [withWork, eval_add, vo, Res.bind_ok] at vo'
    cases hk : eval b t s with
    | ok k => exact ⟨k, rfl⟩
    | err m => rw [hk] at vo'; cases vo'
    | panic => rw [hk] at vo'; cases vo'
    | diverge => rw [hk] at vo'; cases vo'
  obtain ⟨k, hk'⟩ := ht
  have b1 := hb s hs old o k (.inl rfl) vo hk'
  have b2 := hb s hs new n k (.inr rfl) vn hk'
  have add : ∀ v, v + k < 2 ^ 53 → addU128 b v k = .ok (v + k) := by
    intro v hv
    unfold addU128
    rw [if_pos (by unfold u128Size; omega)]
  refine ⟨k, b1, b2, ?_, ?_⟩
  · rw [withWork, eval_add, vo, Res.bind_ok, hk', Res.bind_ok, add o b1]
  · rw [withWork, eval_add, vn, Res.bind_ok, hk', Res.bind_ok, add n b2]

/-- An increase of 30 % is reported as one of less than 0.004 % if both versions also read from storage. -/
example : (compareExtrinsics .debug idOrder (some slowerOld) (some slowerNew) (exParams .guessWorst .time)).map (fun r => rank r.percent) = .ok 30000 ∧
    (compareExtrinsics .debug idOrder (some (withWork slowerOld (.var (str% "READ")))) (some (withWork slowerNew (.var (str% "READ"))))
      (exParams .guessWorst .time)).map (fun r => rank r.percent) = .ok 3 := by decide +kernel

end Swc
