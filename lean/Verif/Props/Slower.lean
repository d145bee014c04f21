/-
C122: a call that becomes more expensive in the new version never looks better in the report.
-/
import Verif.Props.HtmlOut
import Verif.Props.Alive
import Verif.Props.Methods

namespace Swc

open Spec Term

namespace Spec

/-- Two new versions of a call are compared with the old one at the same points: the same components with the same ranges. -/
def SamePoints (old new new' : SimpleExtrinsic) : Prop :=
  (∀ x, Component (some old) (some new) x ↔ Component (some old) (some new') x) ∧ new'.compRanges = new.compRanges

/-- The numbers of a call are those of the program: 128 bits in equations and 32 bits in ranges. -/
def CallFits (e : SimpleExtrinsic) : Prop :=
  LitsFit e.term ∧ ∀ m x r, e.compRanges = some m → binding m x = some r → r.min < 2 ^ 32 ∧ r.max < 2 ^ 32

/-- At every point at which `old` and `new` are compared, `new'` weighs at least as much as `new`. -/
def Slower (b : Build) (params : CompareParams) (old new new' : SimpleExtrinsic) : Prop :=
  ∀ s, Corner params.unit params.method (some old) (some new) s →
    ∀ n n', eval b new.term s = .ok n → eval b new'.term s = .ok n' → n ≤ n'

end Spec

theorem rank_nan : rank .nan = 0 := by decide +kernel
theorem rank_pinf : rank .pinf = 2 ^ 127 - 1 := by decide +kernel

theorem rank_le (x : F64) : rank x ≤ rank .pinf := by
  cases x with
  | nan => decide +kernel
  | ninf => decide +kernel
  | pinf => exact le_refl _
  | fin q => exact rank_mono_all (by simp [F64.le, F64.lt])

/-- C122: the key of a percentage grows with the new weight, also from nothing. -/
theorem C122_rank_new (old new new' : ℕ) (ho : old < 2 ^ 128) (hn : new' < 2 ^ 128) (h : new ≤ new') :
    rank (percent old new) ≤ rank (percent old new') := by
  rcases Nat.eq_zero_or_pos old with rfl | h0
  · rcases Nat.eq_zero_or_pos new' with rfl | h1
    · rw [Nat.le_zero.1 h]
    · rw [C18_from_zero new' h1 hn]; exact rank_le _
  · exact rank_mono_all (C17_monotone_new old new new' h0 ho hn h)

/-- C122: and falls with the old weight. -/
theorem C122_rank_old (old old' new : ℕ) (ho : old' < 2 ^ 128) (hn : new < 2 ^ 128) (h : old ≤ old') :
    rank (percent old' new) ≤ rank (percent old new) := by
  rcases Nat.eq_zero_or_pos old with rfl | h0
  · rcases Nat.eq_zero_or_pos new with rfl | h1
    · rcases Nat.eq_zero_or_pos old' with rfl | h2
      · exact le_refl _
      · rw [C18_to_zero old' h2 ho, C18_zero_zero]; decide +kernel
    · rw [C18_from_zero new h1 hn]; exact rank_le _
  · exact rank_mono_all (C17_antitone_old old old' new h0 ho hn h)

theorem annotated_same {old new new' : SimpleExtrinsic} (h : new'.compRanges = new.compRanges) {x : Str} {r : ComponentRange} :
    Annotated (some old) (some new') x r ↔ Annotated (some old) (some new) x r := by
  unfold Annotated
  constructor
  · rintro ⟨e, m, he | he, hm, hb⟩
    · exact ⟨e, m, .inl he, hm, hb⟩
    · cases he; exact ⟨new, m, .inr rfl, h ▸ hm, hb⟩
  · rintro ⟨e, m, he | he, hm, hb⟩
    · exact ⟨e, m, .inl he, hm, hb⟩
    · cases he; exact ⟨new', m, .inr rfl, h ▸ hm, hb⟩

theorem corner_same {d : Dimension} {m : CompareMethod} {old new new' : SimpleExtrinsic} (h : SamePoints old new new') {s : SimpleScope}
    (hc : Corner d m (some old) (some new) s) : Corner d m (some old) (some new') s := by
  have e1 : ∀ x n, MinInst (some old) (some new') x n ↔ MinInst (some old) (some new) x n := by
    intro x n; unfold MinInst; simp only [annotated_same h.2]
  have e2 : ∀ x n, MaxInst (some old) (some new') x n ↔ MaxInst (some old) (some new) x n := by
    intro x n; unfold MaxInst; simp only [annotated_same h.2]
  obtain ⟨h1, h2, h3, h4, h5⟩ := hc
  refine ⟨h1, h2, h3, fun x hx => ?_, fun x u hu => ?_⟩
  · obtain ⟨n, hn, hl⟩ := h4 x ((h.1 x).2 hx)
    refine ⟨n, hn, ?_⟩
    cases m <;> simpa only [IsLow, IsHigh, e1, e2] using hl
  · rcases h5 x u hu with h | h | h'
    · exact .inl h
    · exact .inr (.inl h)
    · exact .inr (.inr ((h.1 x).1 h'))

theorem corner_value {b : Build} {d : Dimension} {m : CompareMethod} {o n : SimpleExtrinsic} (ho : CallFits o) (hn : CallFits n)
    {s : SimpleScope} (hc : Corner d m (some o) (some n) s) {e : SimpleExtrinsic} (he : LitsFit e.term) {v : Nat}
    (h : eval b e.term s = .ok v) : v < 2 ^ 128 := by
  obtain ⟨c1, c2⟩ := corner_lt hc (by
    rintro x rg ⟨e, m, he | he, hm, hb⟩
    · cases he; exact ho.2 m x rg hm hb
    · cases he; exact hn.2 m x rg hm hb)
  exact eval_lt c1 c2 he h

/-- C122: if the new version of a call weighs at least as much at every point of the comparison, then its row shows at least the same
change (in thousandths of a percent, the precision with which the program compares changes). -/
theorem C122_slower (b : Build) (ho ho' : HashOrder) (old new new' : SimpleExtrinsic) (params : CompareParams) (r r' : TermChange)
    (h : compareExtrinsics b ho (some old) (some new) params = .ok r) (h' : compareExtrinsics b ho' (some old) (some new') params = .ok r')
    (hp : SamePoints old new new') (fo : CallFits old) (fn : CallFits new) (fn' : CallFits new') (hs : Slower b params old new new') :
    rank r.percent ≤ rank r'.percent := by
  obtain ⟨hc, ⟨-, ⟨o, eo, vo⟩, ⟨n, en, vn⟩, ep⟩, -⟩ := C25_reported_is_corner b ho _ _ params r h
  have hc' := corner_same hp hc
  obtain ⟨q, ⟨-, ⟨o', eo', vo'⟩, ⟨n', en', vn'⟩, eq⟩, hm⟩ := C25_maximal b ho' old new' params r' h' r.scope hc'
  rw [vo] at vo'
  cases vo'
  have key : rank r.percent ≤ rank q.percent := by
    rw [ep, eq, eo, en, eo', en']
    exact C122_rank_new o n n' (corner_value fo fn hc fo.1 vo) (corner_value fo fn' hc' fn'.1 vn') (hs _ hc n n' vn vn')
  rcases hm with hm | hm
  · exact key.trans hm.le
  · exact key.trans hm.1.le

namespace Spec

/-- At every point at which `old` and `new` are compared, `old'` weighs at most as much as `old`. -/
def Cheaper (b : Build) (params : CompareParams) (old old' new : SimpleExtrinsic) : Prop :=
  ∀ s, Corner params.unit params.method (some old) (some new) s →
    ∀ n n', eval b old.term s = .ok n → eval b old'.term s = .ok n' → n' ≤ n

/-- Two old versions of a call are compared with the new one at the same points. -/
def SamePointsOld (old old' new : SimpleExtrinsic) : Prop :=
  (∀ x, Component (some old) (some new) x ↔ Component (some old') (some new) x) ∧ old'.compRanges = old.compRanges

end Spec

theorem corner_sides {d : Dimension} {m : CompareMethod} {o n : Option SimpleExtrinsic} {s : SimpleScope} (hc : Corner d m o n s) :
    Corner d m n o s := by
  cases m <;> simpa only [Corner, IsLow, IsHigh, MinInst, MaxInst, annotated_swap (old := n), component_swap (old := n)] using hc

/-- C122: comparing with an old version that was cheaper everywhere shows at least the same change. -/
theorem C122_cheaper (b : Build) (ho ho' : HashOrder) (old old' new : SimpleExtrinsic) (params : CompareParams) (r r' : TermChange)
    (h : compareExtrinsics b ho (some old) (some new) params = .ok r) (h' : compareExtrinsics b ho' (some old') (some new) params = .ok r')
    (hp : SamePointsOld old old' new) (fo : CallFits old) (fn : CallFits new) (hs : Cheaper b params old old' new) :
    rank r.percent ≤ rank r'.percent := by
  obtain ⟨hc, ⟨-, ⟨o, eo, vo⟩, ⟨n, en, vn⟩, ep⟩, -⟩ := C25_reported_is_corner b ho _ _ params r h
  have hp' : SamePoints new old old' := ⟨fun x => by rw [component_swap, hp.1 x, component_swap], hp.2⟩
  have hc' := corner_sides (corner_same hp' (corner_sides hc))
  obtain ⟨q, ⟨-, ⟨o', eo', vo'⟩, ⟨n', en', vn'⟩, eq⟩, hm⟩ := C25_maximal b ho' old' new params r' h' r.scope hc'
  rw [vn] at vn'
  cases vn'
  have key : rank r.percent ≤ rank q.percent := by
    rw [ep, eq, eo, en, eo', en']
    exact C122_rank_old o' o n (corner_value fo fn hc fo.1 vo) (corner_value fo fn hc fn.1 vn) (hs _ hc o o' vo vo')
  rcases hm with hm | hm
  · exact key.trans hm.le
  · exact key.trans hm.1.le

namespace Spec

/-- The call with further work `t` added to its equation. -/
def withWork (e : SimpleExtrinsic) (t : SimpleTerm) : SimpleExtrinsic := { e with term := .add e.term t }

/-- The work mentions no components that the call does not have. -/
def KnownVars (old new : SimpleExtrinsic) (t : SimpleTerm) : Prop :=
  ∀ x, Occurs x t → x = str% "READ" ∨ x = str% "WRITE" ∨ Component (some old) (some new) x

end Spec

theorem withWork_points {old new : SimpleExtrinsic} {t : SimpleTerm} (hk : KnownVars old new t) : SamePoints old new (withWork new t) := by
  refine ⟨fun x => ⟨?_, ?_⟩, rfl⟩
  · rintro ⟨⟨e, he | he, ho⟩, h1, h2⟩
    · exact ⟨⟨e, .inl he, ho⟩, h1, h2⟩
    · cases he; exact ⟨⟨_, .inr rfl, occurs_add.2 (.inl ho)⟩, h1, h2⟩
  · rintro ⟨⟨e, he | he, ho⟩, h1, h2⟩
    · exact ⟨⟨e, .inl he, ho⟩, h1, h2⟩
    · cases he
      rcases occurs_add.1 ho with ho | ho
      · exact ⟨⟨_, .inr rfl, ho⟩, h1, h2⟩
      · rcases hk x ho with h | h | h
        · exact absurd h h1
        · exact absurd h h2
        · exact h

/-- C122: adding work to the equation of the new version never makes its row look better, as long as the sums stay below 128 bits. -/
theorem C122_more_work (b : Build) (ho ho' : HashOrder) (old new : SimpleExtrinsic) (t : SimpleTerm) (params : CompareParams)
    (r r' : TermChange) (h : compareExtrinsics b ho (some old) (some new) params = .ok r)
    (h' : compareExtrinsics b ho' (some old) (some (withWork new t)) params = .ok r') (hk : KnownVars old new t)
    (fo : CallFits old) (fn : CallFits new) (ft : LitsFit t)
    (hsum : ∀ s, Corner params.unit params.method (some old) (some new) s →
      ∀ n k, eval b new.term s = .ok n → eval b t s = .ok k → n + k < 2 ^ 128) : rank r.percent ≤ rank r'.percent := by
  refine C122_slower b ho ho' old new (withWork new t) params r r' h h' (withWork_points hk) fo fn ⟨?_, fn.2⟩ ?_
  · rintro n (hn | hn)
    · cases hn with
      | addL hn => exact fn.1 n (.inl hn)
      | addR hn => exact ft n (.inl hn)
    · cases hn with
      | addL hn => exact fn.1 n (.inr hn)
      | addR hn => exact ft n (.inr hn)
  · intro s hc n n' hn hn'
    rw [withWork, eval_add, hn, Res.bind_ok] at hn'
    cases hk : eval b t s with
    | ok k =>
      have := hsum s hc n k hn hk
      rw [hk, Res.bind_ok] at hn'
      unfold addU128 at hn'
      rw [if_pos (show n + k < u128Size from this)] at hn'
      cases hn'
      omega
    | err m => rw [hk] at hn'; cases hn'
    | panic => rw [hk] at hn'; cases hn'
    | diverge => rw [hk] at hn'; cases hn'

/-- C122: a build with overflow checks needs no such assumption: a sum that is too large ends the program. -/
theorem C122_more_work_debug (ho ho' : HashOrder) (old new : SimpleExtrinsic) (t : SimpleTerm) (params : CompareParams)
    (r r' : TermChange) (h : compareExtrinsics .debug ho (some old) (some new) params = .ok r)
    (h' : compareExtrinsics .debug ho' (some old) (some (withWork new t)) params = .ok r') (hk : KnownVars old new t)
    (fo : CallFits old) (fn : CallFits new) (ft : LitsFit t) : rank r.percent ≤ rank r'.percent := by
  refine C122_more_work .debug ho ho' old new t params r r' h h' hk fo fn ft fun s hc n k hn hk' => ?_
  obtain ⟨q, ⟨-, -, ⟨n', -, vn'⟩, -⟩, -⟩ := C25_maximal .debug ho' old _ params r' h' s (corner_same (withWork_points hk) hc)
  rw [withWork, eval_add, hn, hk', Res.bind_ok, Res.bind_ok] at vn'
  unfold addU128 at vn'
  split at vn'
  · assumption
  · cases vn'

/-- The call `1000 + 20 * n`. -/
def slowerOld : SimpleExtrinsic := exCall (.add (.value 1000) (.mul (.value 20) (.var (str% "n"))))

/-- The call `900 + 30 * n`. -/
def slowerNew : SimpleExtrinsic := exCall (.add (.value 900) (.mul (.value 30) (.var (str% "n"))))

/-- The change between them is 30 %, and far more with a storage read added to the new one. -/
example : (compareExtrinsics .debug idOrder (some slowerOld) (some slowerNew) (exParams .guessWorst .time)).map
      (fun r => (r.oldV, r.newV, rank r.percent)) = .ok (some 3000, some 3900, 30000) := by decide +kernel
example : (compareExtrinsics .debug idOrder (some slowerOld) (some (withWork slowerNew (.var (str% "READ")))) (exParams .guessWorst .time)).map
      (fun r => (r.oldV, r.newV, rank r.percent)) = .ok (some 1000, some 25000900, 2499990000) := by decide +kernel
example : KnownVars slowerOld slowerNew (.var (str% "READ")) := fun _ hx => .inl (occurs_var.1 hx)

theorem sfit_lits {t : SimpleTerm} (h : SFit t) : LitsFit t := by
  induction t with
  | value k => rintro n (hn | hn) <;> cases hn; exact h
  | scalar k => rintro n (hn | hn) <;> cases hn; exact h
  | var x => rintro n (hn | hn) <;> cases hn
  | add l r hl hr =>
    rintro n (hn | hn) <;> cases hn with
    | addL hn => first | exact hl h.1 n (.inl hn) | exact hl h.1 n (.inr hn)
    | addR hn => first | exact hr h.2 n (.inl hn) | exact hr h.2 n (.inr hn)
  | mul l r hl hr =>
    rintro n (hn | hn) <;> cases hn with
    | mulL hn => first | exact hl h.1 n (.inl hn) | exact hl h.1 n (.inr hn)
    | mulR hn => first | exact hr h.2 n (.inl hn) | exact hr h.2 n (.inr hn)

example : CallFits slowerOld ∧ CallFits slowerNew :=
  ⟨⟨sfit_lits (t := slowerOld.term) ⟨by norm_num [SFit], by norm_num [SFit], trivial⟩, (fun _ _ _ h => nomatch h)⟩,
    ⟨sfit_lits (t := slowerNew.term) ⟨by norm_num [SFit], by norm_num [SFit], trivial⟩, (fun _ _ _ h => nomatch h)⟩⟩

/-- C122: without the assumption it is false of a build without overflow checks: the sum wraps around and a call with more work is shown
as a complete saving. -/
theorem C122_false_overflow :
    (compareExtrinsics .release idOrder (some (exCall (.value 5))) (some (exCall (.value (2 ^ 128 - 1)))) (exParams .guessWorst .time)).map
      (fun r => decide (0 < rank r.percent)) = .ok true ∧
    (compareExtrinsics .release idOrder (some (exCall (.value 5))) (some (withWork (exCall (.value (2 ^ 128 - 1))) (.value 1)))
      (exParams .guessWorst .time)).map (fun r => (r.newV, rank r.percent)) = .ok (some 0, -100000) := by decide +kernel

namespace Spec

/-- The entry shows the comparison `r`, with or without a warning. -/
def ShowsChange (d : ExtrinsicDiff) (r : TermChange) : Prop := d.change = .changed r ∨ ∃ m, d.change = .warning r m

end Spec

/-- C122: and so in the report: if only the new version of a call is replaced by a slower one, its row shows at least the same change;
what else the two inputs contain does not matter. -/
theorem C122_report (b : Build) (ho : HashOrder) (rx rx' : RegexEngine) (olds news olds' news' : List ChromaticExtrinsic)
    (params : CompareParams) (filter filter' : FilterParams) (diff diff' : List ExtrinsicDiff)
    (h : compareFiles b ho rx olds news params filter = .ok diff) (h' : compareFiles b ho rx' olds' news' params filter' = .ok diff')
    (p e : Str) (o n n' : ChromaticExtrinsic) (h1 : FirstOf olds p e (some o)) (h2 : FirstOf news p e (some n))
    (h1' : FirstOf olds' p e (some o)) (h2' : FirstOf news' p e (some n'))
    (d d' : ExtrinsicDiff) (hd : d ∈ diff) (hd' : d' ∈ diff') (hn : d.file = p ∧ d.name = e) (hn' : d'.file = p ∧ d'.name = e)
    (r r' : TermChange) (hr : ShowsChange d r) (hr' : ShowsChange d' r')
    (hp : SamePoints (inDim params.unit o) (inDim params.unit n) (inDim params.unit n'))
    (fo : CallFits (inDim params.unit o)) (fn : CallFits (inDim params.unit n)) (fn' : CallFits (inDim params.unit n'))
    (hs : Slower b params (inDim params.unit o) (inDim params.unit n) (inDim params.unit n')) : rank r.percent ≤ rank r'.percent := by
  have shown : ∀ {x y : Option SimpleExtrinsic} {c : ExtrinsicDiff} {q : TermChange}, EntryFor b ho params x y c.change →
      ShowsChange c q → compareExtrinsics b ho x y params = .ok q := by
    intro x y c q hc hq
    rcases hc with ⟨m, _, hc⟩ | ⟨q', hc, ⟨_, hc'⟩ | ⟨_, m, hc'⟩⟩ <;> rcases hq with hq | ⟨m', hq⟩
    · rw [hq] at hc; cases hc
    · rw [hq] at hc; cases hc
    · rw [hq] at hc'; cases hc'; exact hc
    · rw [hq] at hc'; cases hc'
    · rw [hq] at hc'; cases hc'
    · rw [hq] at hc'; cases hc'; exact hc
  obtain ⟨x, y, hx, hy, hent⟩ := C33_right_pair b ho rx olds news params filter diff h d hd
  obtain ⟨x', y', hx', hy', hent'⟩ := C33_right_pair b ho rx' olds' news' params filter' diff' h' d' hd'
  rw [hn.1, hn.2] at hx hy
  rw [hn'.1, hn'.2] at hx' hy'
  rw [firstOf_unique hx h1, firstOf_unique hy h2] at hent
  rw [firstOf_unique hx' h1', firstOf_unique hy' h2'] at hent'
  exact C122_slower b ho ho _ _ _ params r r' (shown hent hr) (shown hent' hr') hp fo fn fn' hs

/-- C122: with a method that looks at one point the two rows have the same old weight, the slower one has the larger new weight, and its
percentage is not smaller, bit by bit (if the old weight is not zero, when there is no percentage). -/
theorem C122_one_point (b : Build) (ho ho' : HashOrder) (old new new' : SimpleExtrinsic) (params : CompareParams)
    (hm : OnePoint params.method) (r r' : TermChange)
    (h : compareExtrinsics b ho (some old) (some new) params = .ok r) (h' : compareExtrinsics b ho' (some old) (some new') params = .ok r')
    (hp : SamePoints old new new') (fo : CallFits old) (fn : CallFits new) (fn' : CallFits new') (hs : Slower b params old new new') :
    ∃ o n n', r.oldV = some o ∧ r'.oldV = some o ∧ r.newV = some n ∧ r'.newV = some n' ∧ n ≤ n' ∧
      (0 < o → F64.le r.percent r'.percent = true) := by
  obtain ⟨k, ⟨-, ⟨o, eo, vo⟩, ⟨n, en, vn⟩, ep⟩, -⟩ := C25_reported_is_corner b ho _ _ params r h
  obtain ⟨k', ⟨-, ⟨o', eo', vo'⟩, ⟨n', en', vn'⟩, ep'⟩, -⟩ := C25_reported_is_corner b ho' _ _ params r' h'
  have kn := corner_same hp k
  rw [eval_same fun x hx => same_point hm k' kn (.inl rfl) (.inl rfl) (fun _ _ => Iff.rfl) hx, vo] at vo'
  cases vo'
  rw [eval_same fun x hx => same_point hm k' kn (.inr rfl) (.inr rfl) (fun _ _ => Iff.rfl) hx] at vn'
  have hle := hs _ k n n' vn vn'
  refine ⟨o, n, n', eo, eo', en, en', hle, fun h0 => ?_⟩
  rw [ep, ep', eo, en, eo', en']
  exact C17_monotone_new o n n' h0 (corner_value fo fn k fo.1 vo) (corner_value fo fn' kn fn'.1 vn') hle

/-- C122: and so an increase that is reported stays reported: no threshold that lets the row through hides the slower one. -/
theorem C122_stays (b : Build) (ho ho' : HashOrder) (old new new' : SimpleExtrinsic) (params : CompareParams)
    (hm : OnePoint params.method) (r r' : TermChange)
    (h : compareExtrinsics b ho (some old) (some new) params = .ok r) (h' : compareExtrinsics b ho' (some old) (some new') params = .ok r')
    (hp : SamePoints old new new') (fo : CallFits old) (fn : CallFits new) (fn' : CallFits new') (hs : Slower b params old new new')
    (t : F64) (hup : F64.le (.fin 0) r.percent = true) (hk : ¬ Below r.percent t) : ¬ Below r'.percent t := by
  obtain ⟨o, n, n', eo, eo', en, en', hle, hpc⟩ := C122_one_point b ho ho' old new new' params hm r r' h h' hp fo fn fn' hs
  obtain ⟨k, ⟨-, ⟨o1, eo1, vo⟩, ⟨n1, en1, vn⟩, ep⟩, -⟩ := C25_reported_is_corner b ho _ _ params r h
  obtain ⟨k', ⟨-, ⟨o2, eo2, vo'⟩, ⟨n2, en2, vn'⟩, ep'⟩, -⟩ := C25_reported_is_corner b ho' _ _ params r' h'
  rcases Nat.eq_zero_or_pos o with rfl | h0
  · -- nothing before: the percentages are infinite or undefined, which no threshold hides
    have hnf : ∀ q, percent 0 n' ≠ .fin q := by
      intro q
      rcases Nat.eq_zero_or_pos n' with rfl | h1
      · rw [C18_zero_zero]; simp
      · rw [en'] at en2; cases en2
        rw [C18_from_zero n' h1 (corner_value fo fn' k' fn'.1 vn')]; simp
    rw [ep', eo', en']
    change ¬ Below (percent 0 n') t
    cases hq : percent 0 n' with
    | fin q => exact absurd hq (hnf q)
    | nan => cases t <;> exact id
    | pinf => cases t <;> exact id
    | ninf => cases t <;> exact id
  · have hl := hpc h0
    cases hr : r.percent with
    | nan => rw [hr] at hl; simp [F64.le, F64.lt, F64.feq] at hl
    | ninf => rw [hr] at hup; simp [F64.le, F64.lt, F64.feq] at hup
    | pinf =>
      rw [hr] at hl
      cases hr' : r'.percent with
      | fin q => rw [hr'] at hl; simp [F64.le, F64.lt, F64.feq] at hl
      | nan => cases t <;> exact id
      | pinf => cases t <;> exact id
      | ninf => cases t <;> exact id
    | fin p =>
      rw [hr] at hl hup hk
      cases hr' : r'.percent with
      | fin q =>
        rw [hr'] at hl
        have h1 := F64.le_fin.1 hl
        have h2 := F64.le_fin.1 hup
        cases t with
        | fin t =>
          intro hb
          apply hk
          change |p| < t
          change |q| < t at hb
          rw [abs_of_nonneg h2]
          rw [abs_of_nonneg (h2.trans h1)] at hb
          exact lt_of_le_of_lt h1 hb
        | pinf => exact absurd trivial hk
        | ninf => exact id
        | nan => exact id
      | nan => cases t <;> exact id
      | pinf => cases t <;> exact id
      | ninf => cases t <;> exact id

/-- An increase of 30 % that becomes one of 80 %, seen with the asymptotic method. -/
example : (compareExtrinsics .debug idOrder (some slowerOld) (some slowerNew) (exParams .asymptotic .time)).map (·.percent) = .ok (.fin 30) ∧
    (compareExtrinsics .debug idOrder (some slowerOld) (some (withWork slowerNew (.mul (.value 15) (.var (str% "n"))))) (exParams .asymptotic .time)).map
      (·.percent) = .ok (.fin 80) := by decide +kernel

namespace Spec

/-- The version `new'` may have further components; those of `old` and `new` keep their ranges. -/
def MoreComponents (old new new' : SimpleExtrinsic) : Prop :=
  ∀ x, Component (some old) (some new) x → Component (some old) (some new') x ∧
    ∀ r, Annotated (some old) (some new') x r ↔ Annotated (some old) (some new) x r

/-- Wherever the known components have the same numbers, `new'` weighs at least as much as `new`. -/
def SlowerWithMore (b : Build) (params : CompareParams) (old new new' : SimpleExtrinsic) : Prop :=
  ∀ s s', Corner params.unit params.method (some old) (some new) s → Corner params.unit params.method (some old) (some new') s' →
    (∀ x, Component (some old) (some new) x → binding s' x = binding s x) →
    ∀ n n', eval b new.term s = .ok n → eval b new'.term s' = .ok n' → n ≤ n'

end Spec

/-- Every point of the smaller comparison is part of a point of the larger one. -/
theorem corner_more {d : Dimension} {m : CompareMethod} {old new new' : SimpleExtrinsic} (h : MoreComponents old new new')
    {s t : SimpleScope} (hs : Corner d m (some old) (some new) s) (ht : Corner d m (some old) (some new') t) :
    ∃ s', Corner d m (some old) (some new') s' ∧ ∀ x, Component (some old) (some new) x → binding s' x = binding s x := by
  classical
  let num : Str → Nat := fun x => if Component (some old) (some new) x then assignment s x else assignment t x
  obtain ⟨s', ⟨h1, h2⟩, -⟩ := corner_exists (baseScope d) (sorted_baseScope d)
    (freesOf idOrder ((some old).map (dropStorage d)) ((some new').map (dropStorage d)) (baseScope d)) nodup_freesOf num num
  simp only [mem_freesOf, freeIn_base] at h2
  have known : ∀ x, Component (some old) (some new) x → binding s' x = binding s x := by
    intro x hx
    obtain ⟨n, hn, -⟩ := hs.2.2.2.1 x hx
    have e : num x = n := by simp only [num, if_pos hx, assignment, hn]
    rcases (h2 x).1 (h x hx).1 with e' | e' <;> rw [e', e, hn]
  refine ⟨s', ⟨h1, ?_, ?_, fun x hx => ?_, fun x u hu => ?_⟩, known⟩
  · rw [(h2 _).2 (fun hc => hc.2.1 rfl), binding_baseScope, if_neg read_ne_write, if_pos rfl]
  · rw [(h2 _).2 (fun hc => hc.2.2 rfl), binding_baseScope, if_pos rfl]
  · by_cases hk : Component (some old) (some new) x
    · obtain ⟨n, hn, hl⟩ := hs.2.2.2.1 x hk
      refine ⟨n, by rw [known x hk, hn], ?_⟩
      have e1 : ∀ n, MinInst (some old) (some new') x n ↔ MinInst (some old) (some new) x n := by
        intro n; simp only [MinInst, (h x hk).2]
      have e2 : ∀ n, MaxInst (some old) (some new') x n ↔ MaxInst (some old) (some new) x n := by
        intro n; simp only [MaxInst, (h x hk).2]
      cases m <;> simpa only [IsLow, IsHigh, e1, e2] using hl
    · obtain ⟨n, hn, hl⟩ := ht.2.2.2.1 x hx
      have e : num x = n := by simp only [num, if_neg hk, assignment, hn]
      refine ⟨n, ?_, hl⟩
      rcases (h2 x).1 hx with e' | e' <;> rw [e', e]
  · by_cases hx : Component (some old) (some new') x
    · exact .inr (.inr hx)
    · rw [(h2 x).2 hx, binding_baseScope] at hu
      split at hu
      · rename_i e; exact .inr (.inl e)
      · split at hu
        · rename_i e; exact .inl e
        · cases hu

/-- C122: this also holds if the slower version has components of its own. -/
theorem C122_new_components (b : Build) (ho ho' : HashOrder) (old new new' : SimpleExtrinsic) (params : CompareParams) (r r' : TermChange)
    (h : compareExtrinsics b ho (some old) (some new) params = .ok r) (h' : compareExtrinsics b ho' (some old) (some new') params = .ok r')
    (hp : MoreComponents old new new') (fo : CallFits old) (fn : CallFits new) (fn' : CallFits new')
    (hs : SlowerWithMore b params old new new') : rank r.percent ≤ rank r'.percent := by
  obtain ⟨hc, ⟨-, ⟨o, eo, vo⟩, ⟨n, en, vn⟩, ep⟩, -⟩ := C25_reported_is_corner b ho _ _ params r h
  obtain ⟨hc', -⟩ := C25_reported_is_corner b ho' _ _ params r' h'
  obtain ⟨s', hs', hk⟩ := corner_more hp hc hc'
  obtain ⟨q, ⟨-, ⟨o', eo', vo'⟩, ⟨n', en', vn'⟩, eq⟩, hm⟩ := C25_maximal b ho' old new' params r' h' s' hs'
  rw [eval_same (s' := r.scope) (fun x hx => by
    obtain ⟨k, hk1⟩ := corner_bound hc (.inl rfl) hx
    refine ⟨k, ?_, hk1⟩
    by_cases h1 : x = str% "READ"
    · subst h1; rw [hs'.2.1, ← hc.2.1, hk1]
    · by_cases h2 : x = str% "WRITE"
      · subst h2; rw [hs'.2.2.1, ← hc.2.2.1, hk1]
      · rw [hk x ⟨⟨old, .inl rfl, hx⟩, h1, h2⟩, hk1]), vo] at vo'
  cases vo'
  have key : rank r.percent ≤ rank q.percent := by
    rw [ep, eq, eo, en, eo', en']
    exact C122_rank_new o n n' (corner_value fo fn hc fo.1 vo) (corner_value fo fn' hs' fn'.1 vn') (hs _ _ hc hs' hk n n' vn vn')
  rcases hm with hm | hm
  · exact key.trans hm.le
  · exact key.trans hm.1.le

theorem withWork_more (old new : SimpleExtrinsic) (t : SimpleTerm) : MoreComponents old new (withWork new t) := by
  refine fun x hx => ⟨?_, fun r => annotated_same (new := new) (new' := withWork new t) rfl⟩
  obtain ⟨⟨e, he | he, ho⟩, h⟩ := hx
  · exact ⟨⟨e, .inl he, ho⟩, h⟩
  · cases he; exact ⟨⟨_, .inr rfl, occurs_add.2 (.inl ho)⟩, h⟩

/-- C122: adding any work whatever to the equation of the new version, also with components that the call did not have, never makes its row
look better, as long as the sums stay below 128 bits. -/
theorem C122_any_work (b : Build) (ho ho' : HashOrder) (old new : SimpleExtrinsic) (t : SimpleTerm) (params : CompareParams)
    (r r' : TermChange) (h : compareExtrinsics b ho (some old) (some new) params = .ok r)
    (h' : compareExtrinsics b ho' (some old) (some (withWork new t)) params = .ok r')
    (fo : CallFits old) (fn : CallFits new) (ft : LitsFit t)
    (hsum : b = .release → ∀ s, Corner params.unit params.method (some old) (some (withWork new t)) s →
      ∀ n k, eval b new.term s = .ok n → eval b t s = .ok k → n + k < 2 ^ 128) : rank r.percent ≤ rank r'.percent := by
  refine C122_new_components b ho ho' old new (withWork new t) params r r' h h' (withWork_more old new t) fo fn ⟨?_, fn.2⟩ ?_
  · rintro n (hn | hn)
    · cases hn with
      | addL hn => exact fn.1 n (.inl hn)
      | addR hn => exact ft n (.inl hn)
    · cases hn with
      | addL hn => exact fn.1 n (.inr hn)
      | addR hn => exact ft n (.inr hn)
  · intro s s' hs hs' hag n n' hn hn'
    have e : eval b new.term s' = .ok n := by
      rw [← hn]
      refine eval_same fun x hx => ?_
      obtain ⟨k, hk⟩ := corner_bound hs (.inr rfl) hx
      refine ⟨k, ?_, hk⟩
      by_cases h1 : x = str% "READ"
      · subst h1; rw [hs'.2.1, ← hs.2.1, hk]
      · by_cases h2 : x = str% "WRITE"
        · subst h2; rw [hs'.2.2.1, ← hs.2.2.1, hk]
        · rw [hag x ⟨⟨new, .inr rfl, hx⟩, h1, h2⟩, hk]
    rw [withWork, eval_add, e, Res.bind_ok] at hn'
    cases hk : eval b t s' with
    | ok k =>
      rw [hk, Res.bind_ok] at hn'
      unfold addU128 at hn'
      split at hn'
      · cases hn'; omega
      · rename_i hge
        cases b with
        | debug => cases hn'
        | release => exact absurd (hsum rfl s' hs' n k e hk) hge
    | err m => rw [hk] at hn'; cases hn'
    | panic => rw [hk] at hn'; cases hn'
    | diverge => rw [hk] at hn'; cases hn'

/-- The new version gets a component `m` of its own: the change grows from 30 % (at `n = 100`) to 560 % (at `n = 0`, `m = 100`). -/
example : (compareExtrinsics .debug idOrder (some slowerOld)
      (some (withWork slowerNew (.mul (.value 57) (.var (str% "m"))))) (exParams .guessWorst .time)).map
      (fun r => (r.oldV, r.newV, rank r.percent)) = .ok (some 1000, some 6600, 560000) := by decide +kernel

end Swc
