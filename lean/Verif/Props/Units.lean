/-
C123: the unit in which weights are written does not matter: multiplying both versions by the same factor changes no percentage.
-/
import Verif.Props.Slower

namespace Swc

open Spec Term F64 Std

/-- C123: the percentage depends on the ratio of the two weights only, as long as they are below 2^53. -/
theorem C123_ratio (c old new : ℕ) (hc : 0 < c) (ho : c * old < 2 ^ 53) (hn : c * new < 2 ^ 53) :
    percent (c * old) (c * new) = percent old new := by
  have lo : old < 2 ^ 53 := _root_.lt_of_le_of_lt (Nat.le_mul_of_pos_left old hc) ho
  have ln : new < 2 ^ 53 := _root_.lt_of_le_of_lt (Nat.le_mul_of_pos_left new hc) hn
  rcases Nat.eq_zero_or_pos old with rfl | h0
  · rw [Nat.mul_zero]
    rcases Nat.eq_zero_or_pos new with rfl | h1
    · rw [Nat.mul_zero]
    · rw [C18_from_zero _ (Nat.mul_pos hc h1) (by omega), C18_from_zero _ h1 (by omega)]
  · rw [percent_eq (Nat.mul_pos hc h0) (by omega) (by omega), percent_eq h0 (by omega) (by omega)]
    unfold pq
    rw [rndQ_nat ho.le, rndQ_nat hn.le, rndQ_nat lo.le, rndQ_nat ln.le]
    have hcq : (c : ℚ) ≠ 0 := by exact_mod_cast hc.ne'
    rw [Nat.cast_mul, Nat.cast_mul, mul_div_mul_left _ _ hcq]

namespace Spec

/-- The pair `old'`, `new'` is compared at the same points as the pair `old`, `new`. -/
def SameCorners (old new old' new' : SimpleExtrinsic) : Prop :=
  (∀ x, Component (some old) (some new) x ↔ Component (some old') (some new') x) ∧
  old'.compRanges = old.compRanges ∧ new'.compRanges = new.compRanges

/-- At every point of the comparison of `old` and `new`, the call `e'` weighs `c` times as much as `e`, less than 2^53. -/
def Scaled (b : Build) (params : CompareParams) (old new : SimpleExtrinsic) (c : ℕ) (e e' : SimpleExtrinsic) : Prop :=
  ∀ s, Corner params.unit params.method (some old) (some new) s →
    ∀ n, eval b e.term s = .ok n → c * n < 2 ^ 53 ∧ eval b e'.term s = .ok (c * n)

/-- The call with its equation multiplied by a number. -/
def scaleBy (c : ℕ) (e : SimpleExtrinsic) : SimpleExtrinsic := { e with term := .mul (.value c) e.term }

end Spec

theorem annotated_corners {old new old' new' : SimpleExtrinsic} (h : SameCorners old new old' new') {x : Str} {r : ComponentRange} :
    Annotated (some old') (some new') x r ↔ Annotated (some old) (some new) x r := by
  unfold Annotated
  constructor
  · rintro ⟨e, m, he | he, hm, hb⟩
    · cases he; exact ⟨old, m, .inl rfl, h.2.1 ▸ hm, hb⟩
    · cases he; exact ⟨new, m, .inr rfl, h.2.2 ▸ hm, hb⟩
  · rintro ⟨e, m, he | he, hm, hb⟩
    · cases he; exact ⟨old', m, .inl rfl, h.2.1 ▸ hm, hb⟩
    · cases he; exact ⟨new', m, .inr rfl, h.2.2 ▸ hm, hb⟩

theorem corners_same {d : Dimension} {m : CompareMethod} {old new old' new' : SimpleExtrinsic} (h : SameCorners old new old' new')
    {s : SimpleScope} : Corner d m (some old') (some new') s ↔ Corner d m (some old) (some new) s := by
  cases m <;> simp only [Corner, IsLow, IsHigh, MinInst, MaxInst, annotated_corners h, h.1]

/-- C123: multiplying both versions of a call by the same number leaves the reported percentage and the reported point as they are, and
multiplies the two reported weights. -/
theorem C123_scaled (b : Build) (ho ho' : HashOrder) (old new old' new' : SimpleExtrinsic) (c : ℕ) (hc : 0 < c) (params : CompareParams)
    (r r' : TermChange) (h : compareExtrinsics b ho (some old) (some new) params = .ok r)
    (h' : compareExtrinsics b ho' (some old') (some new') params = .ok r') (hp : SameCorners old new old' new')
    (so : Scaled b params old new c old old') (sn : Scaled b params old new c new new') :
    r'.percent = r.percent ∧ r'.scope = r.scope ∧ r'.oldV = r.oldV.map (c * ·) ∧ r'.newV = r.newV.map (c * ·) := by
  -- the two reports at one point
  have at_ : ∀ s, Corner params.unit params.method (some old) (some new) s → ∀ q q', ChangeAt b (some old) (some new) s q →
      ChangeAt b (some old') (some new') s q' →
      q'.percent = q.percent ∧ q'.oldV = q.oldV.map (c * ·) ∧ q'.newV = q.newV.map (c * ·) := by
    rintro s hs q q' ⟨-, ⟨o, eo, vo⟩, ⟨n, en, vn⟩, ep⟩ ⟨-, ⟨o', eo', vo'⟩, ⟨n', en', vn'⟩, ep'⟩
    obtain ⟨bo, wo⟩ := so s hs o vo
    obtain ⟨bn, wn⟩ := sn s hs n vn
    rw [wo] at vo'; cases vo'
    rw [wn] at vn'; cases vn'
    rw [ep, ep', eo, en, eo', en']
    exact ⟨C123_ratio c o n hc bo bn, rfl, rfl⟩
  obtain ⟨k, ca, -⟩ := C25_reported_is_corner b ho _ _ params r h
  obtain ⟨k', ca', -⟩ := C25_reported_is_corner b ho' _ _ params r' h'
  obtain ⟨q, cq, mq⟩ := C25_maximal b ho old new params r h r'.scope ((corners_same hp).1 k')
  obtain ⟨q', cq', mq'⟩ := C25_maximal b ho' old' new' params r' h' r.scope ((corners_same hp).2 k)
  have e1 := (at_ _ k _ _ ca cq').1
  have e2 := (at_ _ ((corners_same hp).1 k') _ _ cq ca').1
  rw [e1] at mq'
  rw [← e2] at mq
  have es : r'.scope = r.scope := by
    rcases mq with mq | ⟨hr, mq | mq⟩
    · rcases mq' with mq' | ⟨mq', -⟩ <;> omega
    · exact mq
    · rcases mq' with mq' | ⟨-, mq' | mq'⟩
      · omega
      · exact mq'.symm
      · exact (not_lt_self (TransCmp.lt_trans (cmp := SimpleScope.cmp) mq mq')).elim
  rw [es] at ca'
  obtain ⟨a1, a2, a3⟩ := at_ _ k _ _ ca ca'
  exact ⟨a1, es, a2, a3⟩

theorem occurs_scaleBy {c : ℕ} {e : SimpleExtrinsic} {x : Str} : Occurs x (scaleBy c e).term ↔ Occurs x e.term := by
  refine occurs_mul.trans ⟨fun h => h.elim (fun h => ?_) id, .inr⟩
  cases h

theorem scaleBy_corners (c : ℕ) (old new : SimpleExtrinsic) : SameCorners old new (scaleBy c old) (scaleBy c new) := by
  refine ⟨fun x => ⟨?_, ?_⟩, rfl, rfl⟩
  · rintro ⟨⟨e, he | he, hx⟩, h⟩ <;> cases he
    · exact ⟨⟨_, .inl rfl, occurs_scaleBy.2 hx⟩, h⟩
    · exact ⟨⟨_, .inr rfl, occurs_scaleBy.2 hx⟩, h⟩
  · rintro ⟨⟨e, he | he, hx⟩, h⟩ <;> cases he
    · exact ⟨⟨_, .inl rfl, occurs_scaleBy.1 hx⟩, h⟩
    · exact ⟨⟨_, .inr rfl, occurs_scaleBy.1 hx⟩, h⟩

theorem scaleBy_eval {b : Build} {c n : ℕ} {e : SimpleExtrinsic} {s : SimpleScope} (h : eval b e.term s = .ok n) (hb : c * n < 2 ^ 53) :
    eval b (scaleBy c e).term s = .ok (c * n) := by
  rw [scaleBy, eval_mul, eval_value, Res.bind_ok, h, Res.bind_ok]
  unfold mulU128
  rw [if_pos (by unfold u128Size; omega)]

theorem scaleBy_same (d : Dimension) (c : ℕ) (o n : SimpleExtrinsic) :
    SameEquation d (scaleBy c o).term (scaleBy c n).term ↔ SameEquation d o.term n.term := by
  simp only [SameEquation, scaleBy, costed, eraseUnderscores, Term.mul.injEq, true_and]

/-- C123: if weights are written in a unit that is `c` times smaller, every call that could be compared still can, and its row shows the
same percentage, the same point and the same kind of change. -/
theorem C123_units (b : Build) (ho ho' : HashOrder) (old new : SimpleExtrinsic) (c : ℕ) (hc : 0 < c) (params : CompareParams)
    (r : TermChange) (h : compareExtrinsics b ho (some old) (some new) params = .ok r)
    (hb : ∀ s, Corner params.unit params.method (some old) (some new) s → ∀ e n, e = old ∨ e = new → eval b e.term s = .ok n →
      c * n < 2 ^ 53) :
    ∃ r', compareExtrinsics b ho' (some (scaleBy c old)) (some (scaleBy c new)) params = .ok r' ∧
      r'.percent = r.percent ∧ r'.scope = r.scope ∧ r'.change = r.change ∧
      r'.oldV = r.oldV.map (c * ·) ∧ r'.newV = r.newV.map (c * ·) := by
  have hp := scaleBy_corners c old new
  have hr : ¬ Refused params.method (some (scaleBy c old)) (some (scaleBy c new)) := by
    intro hr
    have : Refused params.method (some old) (some new) := by
      have e : Component (some (scaleBy c old)) (some (scaleBy c new)) = Component (some old) (some new) :=
        funext fun x => propext (hp.1 x).symm
      simpa only [Refused, Unambiguous, annotated_corners hp, e] using hr
    obtain ⟨m, hm⟩ := (compareExtrinsics_spec b ho (some old) (some new) params (.inl (by simp))).1 this
    rw [h] at hm
    cases hm
  obtain ⟨r', h'⟩ := compare_exists (b := b) (ho := ho') (.inl (by simp)) hr (by
    intro s hs e he
    have hs' := (corners_same hp).1 hs
    obtain ⟨q, ⟨-, ⟨o, -, vo⟩, ⟨n, -, vn⟩, -⟩, -⟩ := C25_maximal b ho old new params r h s hs'
    rcases he with he | he <;> cases he
    · exact ⟨_, scaleBy_eval vo (hb s hs' _ _ (.inl rfl) vo)⟩
    · exact ⟨_, scaleBy_eval vn (hb s hs' _ _ (.inr rfl) vn)⟩)
  obtain ⟨e1, e2, e3, e4⟩ := C123_scaled b ho ho' old new (scaleBy c old) (scaleBy c new) c hc params r r' h h' hp
    (fun s hs n hn => ⟨hb s hs _ _ (.inl rfl) hn, scaleBy_eval hn (hb s hs _ _ (.inl rfl) hn)⟩)
    (fun s hs n hn => ⟨hb s hs _ _ (.inr rfl) hn, scaleBy_eval hn (hb s hs _ _ (.inr rfl) hn)⟩)
  refine ⟨r', h', e1, e2, ?_, e3, e4⟩
  obtain ⟨-, -, u, w⟩ := C27_kinds b ho _ _ params r h
  obtain ⟨-, -, u', w'⟩ := C27_kinds b ho' _ _ params r' h'
  by_cases hs : SameEquation params.unit old.term new.term
  · rw [u.2 ⟨_, _, rfl, rfl, hs⟩, u'.2 ⟨_, _, rfl, rfl, (scaleBy_same _ _ _ _).2 hs⟩]
  · rw [w.2 ⟨_, _, rfl, rfl, hs⟩, w'.2 ⟨_, _, rfl, rfl, fun hh => hs ((scaleBy_same _ _ _ _).1 hh)⟩]

/-- From nanoseconds to picoseconds. -/
example : (compareExtrinsics .debug idOrder (some slowerOld) (some slowerNew) (exParams .guessWorst .time)).map
      (fun r => (r.oldV, r.newV, r.percent)) = .ok (some 3000, some 3900, .fin 30) := by decide +kernel
example : (compareExtrinsics .debug idOrder (some (scaleBy 1000 slowerOld)) (some (scaleBy 1000 slowerNew)) (exParams .guessWorst .time)).map
      (fun r => (r.oldV, r.newV, r.percent)) = .ok (some 3000000, some 3900000, .fin 30) := by decide +kernel

/-- C123: with larger weights the unit can matter, because they are rounded before they are divided: here a change is
seen in one unit and not in the other. -/
theorem C123_false_large : percent 9007199254740992 9007199254740993 = .fin 0 ∧
    F64.lt (.fin 0) (percent (1000 * 9007199254740992) (1000 * 9007199254740993)) = true := by decide +kernel

end Swc
