/-
C118: what it means that a call is not mentioned.
-/
import Verif.Spec.Silence
import Verif.Props.Printed
import Verif.Props.WorstCase

namespace Swc

open Spec F64

/-! ### In numbers -/

/-- Percentages of at most the rank of a number `p`: the growth is at most that, up to rounding. -/
theorem growth_of_rank {o n : Nat} {p : ℚ} (ho : 0 < o) (ho1 : o < 2 ^ 53) (hn1 : n < 2 ^ 53) (hp : -100 ≤ p) (hp' : p ≤ 2 ^ 60)
    (hk : rank (percent o n) ≤ rank (fin p)) : (1 - 1 / 2 ^ 49) * (100 * (n : ℚ) / o) - 100 ≤ p + 1 / 500 + 1 / 2 ^ 42 := by
  have hpa : |p| ≤ 2 ^ 100 := by
    rw [abs_le]
    norm_num at hp' ⊢
    constructor <;> linarith
  obtain ⟨q, hq, hacc⟩ := C19_accurate o n ho (by omega) (by omega)
  rw [percent_eq ho (by omega) (by omega)] at hq hk
  injection hq with hq
  rw [rank_fin (pq_abs ho hn1), rank_fin hpa] at hk
  rw [← hq] at hacc
  obtain ⟨c1, c2⟩ := pq_bounds ho hn1
  generalize pq o n = x at *
  have ht := truncQ_le_imp hk
  have hx := abs_le.1 (abs_rndQ_sub_le' (x * 1000))
  have hy := abs_le.1 (abs_rndQ_sub_le' (p * 1000))
  have htiny : (2 : ℚ) ^ (-1075 : ℤ) ≤ 1 / 2 ^ 60 := by
    rw [zpow_neg, ← one_div]
    apply one_div_le_one_div_of_le (by norm_num)
    exact_mod_cast pow_le_pow_right₀ (by norm_num : (1 : ℚ) ≤ 2) (by norm_num : 60 ≤ 1075)
  generalize (2 : ℚ) ^ (-1075 : ℤ) = tiny at *
  have hN0 : 0 ≤ 100 * (n : ℚ) / o := by positivity
  have hNle := abs_le.1 hacc
  generalize 100 * (n : ℚ) / o = N at *
  rcases _root_.le_or_gt x p with hxy | hxy
  · norm_num at *
    linarith
  · have ax : |x * 1000| ≤ 1000 * (x + 200) := by
      rw [abs_le]; constructor <;> linarith
    have ay : |p * 1000| ≤ 1000 * (x + 200) := by
      rw [abs_le]; constructor <;> linarith
    generalize |x * 1000| = ax' at *
    generalize |p * 1000| = ay' at *
    norm_num at *
    linarith

/-- The same for a percentage below a threshold, also where the old cost is zero. -/
theorem growth_below {o n : Nat} {p T : ℚ} (ho1 : o < 2 ^ 53) (hn1 : n < 2 ^ 53) (hp : -100 ≤ p) (hp' : p ≤ 2 ^ 60) (hT : p < T) (hT1 : T ≤ 1000000000)
    (hk : rank (percent o n) ≤ rank (fin p)) : GrowsAtMost T o n := by
  unfold GrowsAtMost
  rcases Nat.eq_zero_or_pos o with rfl | ho
  · rcases Nat.eq_zero_or_pos n with rfl | hn
    · norm_num
    · exfalso
      rw [percent_zero_rank hn (by omega)] at hk
      have hr : rank (fin p) ≤ rank (fin (2 ^ 60)) := by
        refine rank_mono ?_ (by norm_num) hp'
        rw [abs_le]
        norm_num at hp' ⊢
        constructor <;> linarith
      have : rank (fin (2 ^ 60)) < i128Max := by decide +kernel
      omega
  · have h := growth_of_rank ho ho1 hn1 hp hp' hk
    have hop : (0 : ℚ) < o := by exact_mod_cast ho
    rw [mul_comm, ← div_le_iff₀ hop]
    rw [mul_div_assoc] at h
    generalize (n : ℚ) / o = R at *
    norm_num at h ⊢
    linarith

/-! ### Costs -/

theorem summand_cost_congr {rt rt' : Runtime} (hr : rt.read = rt'.read) (hw : rt.write = rt'.write) (d : Dimension) (s : Summand)
    (hc : ∀ c ∈ s.comps, rt.comp c = rt'.comp c) : s.cost rt d = s.cost rt' d := by
  cases s <;> cases d <;> simp_all [Summand.cost, Summand.comps]

theorem cost_of_comps {rt rt' : Runtime} (hr : rt.read = rt'.read) (hw : rt.write = rt'.write) (f : GenFn) (d : Dimension)
    (hc : ∀ c ∈ f.comps, rt.comp c = rt'.comp c) : f.cost rt d = f.cost rt' d := by
  unfold GenFn.cost
  congr 2
  refine List.map_congr_left fun s hs => summand_cost_congr hr hw d s fun c hcs => hc c ?_
  exact List.mem_flatMap.2 ⟨s, hs, hcs⟩

/-- Names without underscores can be told apart. -/
theorem plainNames_of {x y : GenFn} (h : ∀ c, Param (some x) (some y) c → '_' ∉ c ∧ c ≠ str% "READ" ∧ c ≠ str% "WRITE") : PlainNames x y := by
  have hfix : ∀ c : Str, '_' ∉ c → c.filter (· ≠ '_') = c := fun c hc =>
    List.filter_eq_self.2 fun a ha => by
      simp only [decide_eq_true_eq]
      rintro rfl
      exact hc ha
  intro c hc
  rw [hfix c (h c hc).1]
  exact ⟨(h c hc).2.1, (h c hc).2.2, fun c' hc' e => e.trans (hfix c' (h c' hc').1)⟩

/-- Two versions that are called unchanged cost the same. -/
theorem unchanged_same {x y : Located} {d : Dimension} (hk : KindOf (some x) (some y) d .unchanged) (hp : PlainNames x.fn y.fn) (rt : Runtime) :
    x.fn.cost rt d = y.fn.cost rt d := by
  classical
  let g : Str → Str := fun s => if h : ∃ c, Param (some x.fn) (some y.fn) c ∧ c.filter (· ≠ '_') = s then h.choose else s
  have hg : ∀ c, Param (some x.fn) (some y.fn) c → g (c.filter (· ≠ '_')) = c := by
    intro c hc
    have hex : ∃ c', Param (some x.fn) (some y.fn) c' ∧ c'.filter (· ≠ '_') = c.filter (· ≠ '_') := ⟨c, hc, rfl⟩
    show (if h : _ then _ else _) = c
    rw [dif_pos hex]
    exact (hp _ hex.choose_spec.1).2.2 c hc hex.choose_spec.2
  have h := (hk.2.2 x y rfl rfl).1 rfl (fun c hc => ⟨(hp c hc).1, (hp c hc).2.1⟩)
    ⟨fun c => rt.comp (g (c.filter (· ≠ '_'))), rt.read, rt.write⟩ (fun a b hab => congrArg (fun s => rt.comp (g s)) hab)
  have e : ∀ f : GenFn, (∀ c ∈ f.comps, Param (some x.fn) (some y.fn) c) → f.cost rt d = f.cost ⟨fun c => rt.comp (g (c.filter (· ≠ '_'))), rt.read, rt.write⟩ d := by
    intro f hf
    refine cost_of_comps (rt := rt) (rt' := ⟨fun c => rt.comp (g (c.filter (· ≠ '_'))), rt.read, rt.write⟩) rfl rfl f d fun c hc => ?_
    show rt.comp c = rt.comp (g (c.filter (· ≠ '_')))
    rw [hg c (hf c hc)]
  exact (e _ fun c hc => ⟨x.fn, .inl rfl, hc⟩).trans (h.trans (e _ fun c hc => ⟨y.fn, .inr rfl, hc⟩).symm)

/-! ### From silence to costs -/

theorem within_sized {m : CompareMethod} (hm : LooksForWorst m) {x y f : GenFn} {d : Dimension} (hs : Sized m (some x) (some y) d) (hf : some x = some f ∨ some y = some f)
    {rt : Runtime} (hw : Within (some x) (some y) rt) : f.cost rt d < 2 ^ 53 := by
  have h1 := hs f hf
  have h2 : f.cost rt d ≤ f.cost (point (highest (some x) (some y))) d := Gen.cost_mono hw.1 hw.2.1 (fun c => (hw.2.2 c).2) f d
  rcases hm with rfl | rfl <;> exact Nat.lt_of_le_of_lt h2 h1

/-- Numbers that the filter hides: nowhere does the cost grow by more than the threshold. -/
theorem hidden_growth {m : CompareMethod} (hm : LooksForWorst m) {x y : Located} {d : Dimension} {r : TermChange} (hr : Reported m (some x.fn) (some y.fn) d r)
    (hk : KindOf (some x) (some y) d r.change) (hs : Sized m (some x.fn) (some y.fn) d) (hp : PlainNames x.fn y.fn) {filter : FilterParams} {p e : Str} {T : ℚ}
    (hT : filter.threshold = fin T) (hT0 : 0 ≤ T) (hT1 : T ≤ 1000000000) (hc : ∀ s, filter.change = some s → .changed ∈ s)
    (hn : ¬ Kept filter ⟨e, p, .changed r⟩) {rt : Runtime} (hw : Within (some x.fn) (some y.fn) rt) :
    GrowsAtMost T (x.fn.cost rt d) (y.fn.cost rt d) := by
  obtain ⟨hmax, rt0, hw0, hat⟩ : (∀ rt, Within (some x.fn) (some y.fn) rt → rank (percent (x.fn.cost rt d) (y.fn.cost rt d)) ≤ rank r.percent) ∧
      ∃ rt, Within (some x.fn) (some y.fn) rt ∧ ReportsAt (some x.fn) (some y.fn) d rt r := by
    rcases hm with rfl | rfl <;> exact hr
  cases hch : r.change with
  | added => rw [hch] at hk; exact nomatch hk.1.1 rfl
  | removed => rw [hch] at hk; exact nomatch hk.2.1.1 rfl
  | unchanged =>
    rw [hch] at hk
    unfold GrowsAtMost
    rw [unchanged_same hk hp rt]
    have : (0 : ℚ) ≤ y.fn.cost rt d := Nat.cast_nonneg _
    nlinarith
  | changed =>
    have hb : Below r.percent (fin T) := by
      by_contra hb
      refine hn (.inr ⟨r, .inl rfl, fun s hs => by rw [hch]; exact hc s hs, .inr (.inr (.inl ⟨hch, ?_⟩))⟩)
      rw [hT]
      exact hb
    have o0 := within_sized hm hs (.inl rfl) hw0
    have n0 := within_sized hm hs (.inr rfl) hw0
    have hper : r.percent = percent (x.fn.cost rt0 d) (y.fn.cost rt0 d) := hat.2.2.1
    have hmx := hmax rt hw
    have : 0 < x.fn.cost rt0 d := by
      rcases Nat.eq_zero_or_pos (x.fn.cost rt0 d) with h0 | h0
      · exfalso
        rw [h0] at hper
        rcases Nat.eq_zero_or_pos (y.fn.cost rt0 d) with h1 | h1
        · rw [h1, C18_zero_zero] at hper; rw [hper] at hb; exact hb
        · rw [C18_from_zero _ h1 (by omega)] at hper; rw [hper] at hb; exact hb
      · exact h0
    rw [percent_eq this (by omega) (by omega)] at hper
    obtain ⟨b1, b2⟩ := pq_bounds this n0
    rw [hper] at hb hmx
    have hlt : pq (x.fn.cost rt0 d) (y.fn.cost rt0 d) < T := (abs_lt.1 (show |_| < T from hb)).2
    exact growth_below (within_sized hm hs (.inl rfl) hw) (within_sized hm hs (.inr rfl) hw) b1 b2 hlt hT1 hmx

theorem first_mem {l : List Located} {p e : Str} {x : Located} (h : first l p e = some x) : x ∈ l ∧ x.file = p ∧ x.fn.name = e := by
  unfold first at h
  have h1 := List.mem_of_find?_eq_some h
  have h2 := List.find?_some h
  simp only [decide_eq_true_eq] at h2
  exact ⟨h1, h2⟩

section

variable {rx : RegexEngine} {filter : FilterParams} {m : CompareMethod} {d : Dimension} {olds news : List Located}

/-- C118: a method that looks for the largest change, and two versions of a call that passes the filters by name but is not listed.  Then either it could
not be compared and errors are not listed, or for no parameters in the documented ranges does the new version cost more than the threshold above the old one. -/
theorem C118_unlisted {errors : Bool} {calls : List (Str × Str)} (h : AllCalls rx filter m d olds news errors calls) (hm : LooksForWorst m)
    (hsz : AllSized m d olds news) {T : ℚ} (hT : filter.threshold = fin T) (hT0 : 0 ≤ T) (hT1 : T ≤ 1000000000) (hc : ∀ s, filter.change = some s → .changed ∈ s)
    {p e : Str} {x y : Located} (hx : first olds p e = some x) (hy : first news p e = some y) (hp : PlainNames x.fn y.fn) (hsel : Selected rx filter p e)
    (hno : (p, e) ∉ calls) :
    (errors = false ∧ Hopeless m olds news p e) ∨
      ∀ rt, Within (some x.fn) (some y.fn) rt → GrowsAtMost T (x.fn.cost rt d) (y.fn.cost rt d) := by
  obtain ⟨hxm, rfl, rfl⟩ := first_mem hx
  obtain ⟨a1, a2⟩ := h.all x (.inl hxm) hsel
  by_cases hh : Hopeless m olds news x.file x.fn.name
  · left
    refine ⟨?_, hh⟩
    have := mt (a1 hh).2 hno
    simpa using this
  · right
    obtain ⟨r, ⟨hr, hk⟩, hi⟩ := a2 hh
    have hs := hsz x.file x.fn.name
    rw [hx, hy] at hr hk hs
    exact fun rt hw => hidden_growth hm hr hk hs hp hT hT0 hT1 hc (mt hi.2 hno) hw

/-- C118: a call without an old version that passes the filters is listed, unless it could not be compared and errors are not listed.  The threshold does not matter. -/
theorem C118_added {errors : Bool} {calls : List (Str × Str)} (h : AllCalls rx filter m d olds news errors calls)
    (hc : ∀ s, filter.change = some s → .added ∈ s) {p e : Str} {y : Located} (hx : first olds p e = none) (hy : first news p e = some y)
    (hsel : Selected rx filter p e) : (p, e) ∈ calls ∨ (errors = false ∧ Hopeless m olds news p e) := by
  obtain ⟨hym, rfl, rfl⟩ := first_mem hy
  obtain ⟨a1, a2⟩ := h.all y (.inr hym) hsel
  by_cases hh : Hopeless m olds news y.file y.fn.name
  · cases errors with
    | true => exact .inl ((a1 hh).2 rfl)
    | false => exact .inr ⟨rfl, hh⟩
  · obtain ⟨r, ⟨hr, hk⟩, hi⟩ := a2 hh
    have hch : r.change = .added := hk.1.2 hx
    exact .inl (hi.2 (.inr ⟨r, .inl rfl, fun s hs => by rw [hch]; exact hc s hs, .inl hch⟩))

/-- What is printed mentions the calls that are listed. -/
theorem mentions_calls {scope : SimpleScope → Str} {f : FormatParams} {nm : Str → Str} {all : List ExtrinsicDiff} {shown : Shown}
    (h : CompleteReport rx filter m d olds news all) (hd : Displays scope f filter d nm all shown) :
    ∃ calls, AllCalls rx filter m d olds news (decide (f.format ≠ .csv ∨ shown = .nothing)) calls ∧ ∀ p e, (p, e) ∈ calls → PrintedFor nm p e shown := by
  cases hd with
  | nothing hn =>
    refine ⟨[], ?_, fun p e h => nomatch h⟩
    have := C92_nothing h hn
    simpa using this
  | table hf he hk ht =>
    obtain ⟨calls, h1, h2⟩ := C92_rows h ht
    refine ⟨calls, ?_, fun p e hpe => ?_⟩
    · have : f.format ≠ .csv := by rcases hf with hf | hf <;> rw [hf] <;> exact fun h => nomatch h
      simpa [this] using h1
    · obtain ⟨row, hrow, hr⟩ := forall₂_mem_left h2 hpe
      refine ⟨row, hrow, ?_⟩
      rcases hr with ⟨-, rfl⟩ | ⟨-, r, -, -, ⟨o, n, pct, text, hcells, -⟩, -⟩
      · rfl
      · have : row.take 2 = (row.take 5).take 2 := by rw [List.take_take]; rfl
        rw [this, hcells]
        rfl
  | csv hf he hk ht =>
    obtain ⟨calls, lines, h1, h2, h3⟩ := C92_lines h ht
    refine ⟨calls, ?_, fun p e hpe => ?_⟩
    · simpa [hf] using h1
    · obtain ⟨line, hline, -, r, -, -, o, n, pct, text, hcells, -⟩ := forall₂_mem_left h3 hpe
      refine ⟨line, ?_, by rw [hcells]; rfl⟩
      rw [h2]
      simp [hline]

/-- C118: what is printed of a report does not mention a call with two versions that passes the filters by name.  Unless it could not be compared and the
output is in the format `csv`, the new version nowhere costs more than the threshold above the old one. -/
theorem C118_silence {scope : SimpleScope → Str} {f : FormatParams} {nm : Str → Str} {all : List ExtrinsicDiff} {shown : Shown}
    (h : CompleteReport rx filter m d olds news all) (hd : Displays scope f filter d nm all shown) (hm : LooksForWorst m)
    (hsz : AllSized m d olds news) {T : ℚ} (hT : filter.threshold = fin T) (hT0 : 0 ≤ T) (hT1 : T ≤ 1000000000) (hc : ∀ s, filter.change = some s → .changed ∈ s)
    {p e : Str} {x y : Located} (hx : first olds p e = some x) (hy : first news p e = some y) (hp : PlainNames x.fn y.fn) (hsel : Selected rx filter p e)
    (hno : ¬ PrintedFor nm p e shown) :
    (f.format = .csv ∧ Hopeless m olds news p e) ∨
      ∀ rt, Within (some x.fn) (some y.fn) rt → GrowsAtMost T (x.fn.cost rt d) (y.fn.cost rt d) := by
  obtain ⟨calls, h1, h2⟩ := mentions_calls h hd
  rcases C118_unlisted h1 hm hsz hT hT0 hT1 hc hx hy hp hsel (mt (h2 p e) hno) with ⟨h3, h4⟩ | h3
  · left
    refine ⟨?_, h4⟩
    by_contra hf
    simp [hf] at h3
  · exact .inr h3

end

/-- C118: `subweight compare commits …`, as in `C92_commits`, with a method that looks for the largest change: if what is printed does not mention a call
that is in both revisions and passes the filters by name then, unless it could not be compared and the format is `csv`, it nowhere costs more than the
threshold above what it did. -/
theorem C118_commits {W : World} (b : Build) (hash : HashOrder) (rx : RegexEngine) (cc : CharClass) (penv : PrintEnv) (rest : List Str) (s : Run W)
    {g : List Given} {v : Bool} {params : CompareParams} {filter : FilterParams} {format : FormatParams} {old new : Str} {repo : Path} {pattern : Str}
    (hw : Written commitsArguments g rest) (hs : SaysCommits g v params filter format old new repo pattern) (hdot : ¬ DotDot pattern)
    {G1 G2 : List Event} {s1 s2 : W.State} {files1 files2 : List Path} {olds news : List Located}
    (c1 : CheckedOut W old params.shouldPull params.gitForce s.state G1 s1) (l1 : Listed W s1 repo pattern (2 ^ 64 - 1) files1)
    (f1 : FunctionsOf (W.fs s1) repo params.ignoreErrors files1 olds)
    (c2 : CheckedOut W new params.shouldPull params.gitForce s1 G2 s2) (l2 : Listed W s2 repo pattern (2 ^ 64 - 1) files2)
    (f2 : FunctionsOf (W.fs s2) repo params.ignoreErrors files2 news)
    (hrx : ∀ q, filter.pallet = some q ∨ filter.extrinsic = some q → rx.compile q ≠ none)
    (hsz : AllSized params.method params.unit olds news) {nm : Str → Str}
    (hl : Legible penv format nm fun p => ∃ x, (x ∈ olds ∨ x ∈ news) ∧ x.file = p)
    (hm : LooksForWorst params.method) {T : ℚ} (hT : filter.threshold = fin T) (hT0 : 0 ≤ T) (hT1 : T ≤ 1000000000) (hc : ∀ s, filter.change = some s → .changed ∈ s) :
    ∃ shown s', cliMain b hash rx ⟨rustSyn, cc⟩ penv (str% "compare" :: str% "commits" :: rest) s = (.ok (some (.inl shown)), s') ∧
      ∀ p e x y, first olds p e = some x → first news p e = some y → PlainNames x.fn y.fn → Selected rx filter p e → ¬ PrintedFor nm p e shown →
        (format.format = .csv ∧ Hopeless params.method olds news p e) ∨
          ∀ rt, Within (some x.fn) (some y.fn) rt → GrowsAtMost T (x.fn.cost rt params.unit) (y.fn.cost rt params.unit) := by
  obtain ⟨all, shown, s', h1, -, h2, h3⟩ := C92_commits b hash rx cc penv rest s hw hs hdot c1 l1 f1 c2 l2 f2 hrx hsz hl
  exact ⟨shown, s', h1, fun p e x y hx hy hp hsel hno => C118_silence h2 h3 hm hsz hT hT0 hT1 hc hx hy hp hsel hno⟩

/-- C118: the same for `subweight compare files …`. -/
theorem C118_files {W : World} (b : Build) (hash : HashOrder) (rx : RegexEngine) (cc : CharClass) (penv : PrintEnv) (rest : List Str) (s : Run W)
    {g : List Given} {v : Bool} {params : CompareParams} {filter : FilterParams} {format : FormatParams} {old new : List Path}
    (hw : Written filesArguments g rest) (hs : SaysFiles g v params filter format old new) {olds news : List Located}
    (f1 : FunctionsIn (W.fs s.state) params.ignoreErrors old olds) (f2 : FunctionsIn (W.fs s.state) params.ignoreErrors new news)
    (hrx : ∀ q, filter.pallet = some q ∨ filter.extrinsic = some q → rx.compile q ≠ none)
    (hsz : AllSized params.method params.unit olds news) {nm : Str → Str}
    (hl : Legible penv format nm fun p => ∃ x, (x ∈ olds ∨ x ∈ news) ∧ x.file = p)
    (hm : LooksForWorst params.method) {T : ℚ} (hT : filter.threshold = fin T) (hT0 : 0 ≤ T) (hT1 : T ≤ 1000000000) (hc : ∀ s, filter.change = some s → .changed ∈ s) :
    ∃ shown, cliMain b hash rx ⟨rustSyn, cc⟩ penv (str% "compare" :: str% "files" :: rest) s = (.ok (some (.inl shown)), s) ∧
      ∀ p e x y, first olds p e = some x → first news p e = some y → PlainNames x.fn y.fn → Selected rx filter p e → ¬ PrintedFor nm p e shown →
        (format.format = .csv ∧ Hopeless params.method olds news p e) ∨
          ∀ rt, Within (some x.fn) (some y.fn) rt → GrowsAtMost T (x.fn.cost rt params.unit) (y.fn.cost rt params.unit) := by
  obtain ⟨all, shown, h1, h2, h3⟩ := C92_files b hash rx cc penv rest s hw hs f1 f2 hrx hsz hl
  exact ⟨shown, h1, fun p e x y hx hy hp hsel hno => C118_silence h2 h3 hm hsz hT hT0 hT1 hc hx hy hp hsel hno⟩

/-! ### No false alarms, and what many silent comparisons mean -/

/-- A percentage that is not below a threshold: the change is at least that, up to rounding. -/
theorem change_of_not_below {o n : Nat} {T : ℚ} (ho : 0 < o) (ho1 : o < 2 ^ 53) (hn1 : n < 2 ^ 53) (hT : T ≤ 1000000000) (h : ¬ Below (percent o n) (fin T)) :
    T - 1 / 100 ≤ |100 * ((n : ℚ) - o) / o| := by
  obtain ⟨q, hq, hacc⟩ := C19_accurate o n ho (by omega) (by omega)
  rw [hq] at h
  replace h : T ≤ |q| := not_lt.1 h
  have hop : (0 : ℚ) < o := by exact_mod_cast ho
  have he : 100 * ((n : ℚ) - o) / o = 100 * (n : ℚ) / o - 100 := by field_simp
  rw [he]
  have hN0 : 0 ≤ 100 * (n : ℚ) / o := by positivity
  generalize 100 * (n : ℚ) / o = N at *
  have h1 := abs_le.1 hacc
  rcases _root_.le_or_gt N 2000000000 with hN | hN
  · have h2 : |q| ≤ |N - 100| + |q - (N - 100)| := by
      have := abs_add_le (N - 100) (q - (N - 100))
      simpa using this
    have h3 : (N + 100) / 2 ^ 50 ≤ 1 / 100 := by
      rw [div_le_iff₀ (by positivity)]
      norm_num
      linarith
    linarith
  · have : N - 100 ≤ |N - 100| := le_abs_self _
    linarith

/-- C118, no false alarms: a method that looks for the largest change, and a call with two versions that is listed and could be compared.  Then for some parameters in
the documented ranges the new version differs from the old one by at least the threshold (up to a hundredth of a percentage point), or the old one costs nothing. -/
theorem C118_alarm {rx : RegexEngine} {filter : FilterParams} {m : CompareMethod} {d : Dimension} {olds news : List Located} {errors : Bool} {calls : List (Str × Str)}
    (h : AllCalls rx filter m d olds news errors calls) (hm : LooksForWorst m)
    (hsz : AllSized m d olds news) {T : ℚ} (hT : filter.threshold = fin T) (hT1 : T ≤ 1000000000)
    {p e : Str} {x y : Located} (hx : first olds p e = some x) (hy : first news p e = some y) (hh : ¬ Hopeless m olds news p e) (hin : (p, e) ∈ calls) :
    ∃ rt, Within (some x.fn) (some y.fn) rt ∧
      (x.fn.cost rt d = 0 ∨ T - 1 / 100 ≤ |100 * ((y.fn.cost rt d : ℚ) - x.fn.cost rt d) / x.fn.cost rt d|) := by
  obtain ⟨hxm, rfl, rfl⟩ := first_mem hx
  obtain ⟨r, ⟨hr, hk⟩, hi⟩ := (h.all x (.inl hxm) (h.there _ hin).2).2 hh
  have hs := hsz x.file x.fn.name
  rw [hx, hy] at hr hk hs
  obtain ⟨-, rt0, hw0, hat⟩ : (∀ rt, Within (some x.fn) (some y.fn) rt → rank (percent (x.fn.cost rt d) (y.fn.cost rt d)) ≤ rank r.percent) ∧
      ∃ rt, Within (some x.fn) (some y.fn) rt ∧ ReportsAt (some x.fn) (some y.fn) d rt r := by
    rcases hm with rfl | rfl <;> exact hr
  refine ⟨rt0, hw0, ?_⟩
  rcases Nat.eq_zero_or_pos (x.fn.cost rt0 d) with h0 | h0
  · exact .inl h0
  right
  rcases _root_.lt_or_ge T (1 / 100) with hlow | hlow
  · have := abs_nonneg (100 * ((y.fn.cost rt0 d : ℚ) - x.fn.cost rt0 d) / x.fn.cost rt0 d)
    linarith
  rcases hi.1 hin with ⟨msg, hmsg⟩ | ⟨c, hc, -, hkind⟩
  · exact nomatch hmsg
  have : c = r := by
    rcases hc with hc | ⟨_, hc⟩ <;> cases hc
    rfl
  subst this
  have hb : ¬ Below c.percent (fin T) := by
    rw [← hT]
    rcases hkind with hkind | hkind | ⟨-, hb⟩ | ⟨-, ht⟩
    · exact nomatch hk.1.1 hkind
    · exact nomatch hk.2.1.1 hkind
    · exact hb
    · rw [hT] at ht
      have h1 : T < rndQ (1 / 1000000) := ht
      have h2 : rndQ (1 / 1000000) < 1 / 100 := by decide +kernel
      linarith
  rw [show c.percent = percent (x.fn.cost rt0 d) (y.fn.cost rt0 d) from hat.2.2.1] at hb
  exact change_of_not_below h0 (within_sized hm hs (.inl rfl) hw0) (within_sized hm hs (.inr rfl) hw0) hT1 hb

/-- Revisions that are compared one after the other, all without mentioning `p::e`. -/
inductive AllSilent (rx : RegexEngine) (filter : FilterParams) (m : CompareMethod) (d : Dimension) (p e : Str) (rt : Runtime) : Located → List (List Located) → Located → Prop
  | done {x : Located} : AllSilent rx filter m d p e rt x [] x
  | step {olds : List Located} {x y z : Located} {l : List (List Located)} {calls : List (Str × Str)} (news : List Located)
    (hx : first olds p e = some x) (hy : first news p e = some y) (hn : PlainNames x.fn y.fn) (hw : Within (some x.fn) (some y.fn) rt)
    (hsz : AllSized m d olds news) (hc : AllCalls rx filter m d olds news true calls) (hno : (p, e) ∉ calls) (h : AllSilent rx filter m d p e rt y l z) :
    AllSilent rx filter m d p e rt x (news :: l) z

/-- C118, many silent comparisons: if none of `k` comparisons of successive revisions lists the call then from the first to the last it has grown by at most the `k`-th power of the threshold. -/
theorem C118_chain {rx : RegexEngine} {filter : FilterParams} {m : CompareMethod} {d : Dimension} {p e : Str} {rt : Runtime} {x z : Located} {l : List (List Located)}
    (h : AllSilent rx filter m d p e rt x l z) (hm : LooksForWorst m) {T : ℚ} (hT : filter.threshold = fin T) (hT0 : 0 ≤ T) (hT1 : T ≤ 1000000000)
    (hc : ∀ s, filter.change = some s → .changed ∈ s) (hsel : Selected rx filter p e) :
    (z.fn.cost rt d : ℚ) ≤ x.fn.cost rt d * (1 + (T + 1 / 100) / 100) ^ l.length := by
  induction h with
  | done => simp
  | step news hx hy hn hw hsz hcalls hno _ ih =>
    rcases C118_unlisted hcalls hm hsz hT hT0 hT1 hc hx hy hn hsel hno with ⟨h, -⟩ | h
    · cases h
    · refine ih.trans ?_
      have h1 := h rt hw
      unfold GrowsAtMost at h1
      rw [List.length_cons, pow_succ', ← mul_assoc]
      exact mul_le_mul_of_nonneg_right h1 (by positivity)

/-! ### On the page -/

/-- C118: the page of the server with a method that looks for the largest change.  A call in both revisions that passes the filters by name but has no row either
could not be compared and the page says why, or it nowhere costs more than the threshold above what it did. -/
theorem C118_page {rx : RegexEngine} {a : CompareArgs} {org : Str} {olds news : List Located} {all diff : List ExtrinsicDiff} {page : Str}
    (h : ShowsReport rx a org olds news all diff page) (hm : LooksForWorst a.method) (hsz : AllSized a.method a.unit olds news) (hT : a.threshold ≤ 1000000000)
    {p e : Str} {x y : Located} (hx : first olds p e = some x) (hy : first news p e = some y) (hp : PlainNames x.fn y.fn) (hsel : Selected rx (filterOf a) p e)
    (hno : ∀ row ∈ tableRows (tokens page) (str% "sort_me"), row.1.lookup (str% "id") ≠ some (p ++ str% "." ++ e)) :
    (Hopeless a.method olds news p e ∧ ∃ m, Reason a.method p e (Param (some x.fn) (some y.fn)) (fun c r => r ∈ ranges (some x.fn) (some y.fn) c) m ∧
      strip m ∈ linesOf (tokens page) (str% "collapseErrors")) ∨
      ∀ rt, Within (some x.fn) (some y.fn) rt → GrowsAtMost a.threshold (x.fn.cost rt a.unit) (y.fn.cost rt a.unit) := by
  obtain ⟨hxm, rfl, rfl⟩ := first_mem hx
  obtain ⟨d, hd, h1, h2, h3⟩ := C87_nothing_missing h (.inl hxm) hsel
  have hT' : (filterOf a).threshold = fin a.threshold := by
    show F64.ofNat a.threshold = _
    rw [ofNat_fin (by omega), rndQ_nat (by omega)]
  have hsay := h.complete.2.2 d hd
  rw [h1, h2, hx, hy] at hsay
  rcases hsay with ⟨k1, m, hm', hr⟩ | ⟨k1, r, k2, k3, -, -, k4⟩
  · left
    refine ⟨by unfold Hopeless; rw [hx, hy]; exact k1, m, hr, ?_⟩
    rcases h3 (.inl ⟨m, hm'⟩) with ⟨r, row, hrow, c0, c1, c2, c3, c4, c5, c6, c7, c8, -, hs⟩ | ⟨m', e', hl⟩
    · exact absurd (by rw [hs.id, h1, h2]) (hno row hrow)
    · rw [hm'] at e'; cases e'; exact hl
  · right
    have hn : numbers d.change = some r := by
      rcases k4 with ⟨-, k4⟩ | ⟨_, -, -, _, k4, -⟩ <;> rw [k4] <;> rfl
    have hs := hsz x.file x.fn.name
    rw [hx, hy] at hs
    refine fun rt hw => hidden_growth hm k2 k3 hs hp hT' (Nat.cast_nonneg _) (by exact_mod_cast hT) (fun s h => nomatch h) (p := x.file) (e := x.fn.name) (fun hk => ?_) hw
    rcases h3 ((kept_numbers hn _ _).1 hk) with ⟨r, row, hrow, c0, c1, c2, c3, c4, c5, c6, c7, c8, -, hs⟩ | ⟨m', e', hl⟩
    · exact absurd (by rw [hs.id, h1, h2]) (hno row hrow)
    · rw [e'] at hn; cases hn

/-! ### What it does not mean -/

/-- Whether a comparison with this method and threshold hides the call with these two equations. -/
def hides (m : CompareMethod) (T : ℚ) (old new : SimpleTerm) : Bool :=
  match compareExtrinsics .release idOrder (some (exCall old)) (some (exCall new)) (exParams m .time) with
  | .ok r => !keepChange ⟨fin T, none, none, none⟩ ⟨str% "f", str% "p", .changed r⟩
  | _ => false

theorem kept_of_hides {m : CompareMethod} {T : ℚ} {old new : SimpleTerm} (h : hides m T old new = true) :
    ∃ r, compareExtrinsics .release idOrder (some (exCall old)) (some (exCall new)) (exParams m .time) = .ok r ∧
      ¬ Kept ⟨fin T, none, none, none⟩ ⟨str% "f", str% "p", .changed r⟩ := by
  unfold hides at h
  generalize compareExtrinsics .release idOrder (some (exCall old)) (some (exCall new)) (exParams m .time) = c at h
  cases c with
  | ok r =>
    refine ⟨r, rfl, fun hk => ?_⟩
    simp [keepChange_iff.2 hk] at h
  | err m => cases h
  | panic => cases h
  | diverge => cases h

/-- C118, the converse for savings is false: silence does not mean that costs are about the same.  A call can have become ten times cheaper for some
parameters in the ranges and be hidden by a threshold of 10 %: what is reported, and compared with the threshold, is the largest change, here -5 %. -/
theorem C118_savings : ∃ old new : SimpleTerm, (∃ r, compareExtrinsics .release idOrder (some (exCall old)) (some (exCall new)) (exParams .guessWorst .time) = .ok r ∧
      ¬ Kept ⟨fin 10, none, none, none⟩ ⟨str% "f", str% "p", .changed r⟩) ∧
    ∃ lo hi ρ : Str → Nat, Box .time (exCall old) (exCall new) lo hi ∧ InBox .time (exCall old) (exCall new) lo hi ρ ∧
      10 * denote ρ new < denote ρ old := by
  refine ⟨.add (.value 100) (.mul (.value 10) (.var (str% "n"))), .value 95, kept_of_hides (by decide +kernel), exAt 0, exAt 100, exAt 100, ?_, ?_, by decide⟩
  · refine ⟨?_, ?_, by constructor <;> decide, by constructor <;> decide⟩
    · rintro x ⟨_, h1, h2⟩
      refine .inl ⟨?_, by simp [exAt, h1, h2]⟩
      rintro r ⟨e, m, he | he, hm, _⟩ <;> injection he with he <;> subst he <;> cases hm
    · rintro x ⟨_, h1, h2⟩
      refine .inl ⟨?_, by simp [exAt, h1, h2]⟩
      rintro r ⟨e, m, he | he, hm, _⟩ <;> injection he with he <;> subst he <;> cases hm
  · refine ⟨by constructor <;> decide, ?_⟩
    rintro x ⟨_, h1, h2⟩
    simp [exAt, h1, h2]

/-- C118, for the other methods it is false: they look at one choice of parameters only.  With the method `asymptotic` a call that costs 90 times as much for the
smallest parameters is hidden by a threshold of 10 %. -/
theorem C118_elsewhere : ∃ old new : SimpleTerm, (∃ r, compareExtrinsics .release idOrder (some (exCall old)) (some (exCall new)) (exParams .asymptotic .time) = .ok r ∧
      ¬ Kept ⟨fin 10, none, none, none⟩ ⟨str% "f", str% "p", .changed r⟩) ∧
    ∃ lo hi : Str → Nat, Box .time (exCall old) (exCall new) lo hi ∧ InBox .time (exCall old) (exCall new) lo hi lo ∧
      90 * denote lo old ≤ denote lo new := by
  refine ⟨.add (.value 1) (.mul (.value 10) (.var (str% "n"))), .add (.value 90) (.mul (.value 10) (.var (str% "n"))), kept_of_hides (by decide +kernel),
    exAt 0, exAt 100, ?_, ?_, by decide⟩
  · refine ⟨?_, ?_, by constructor <;> decide, by constructor <;> decide⟩
    · rintro x ⟨_, h1, h2⟩
      refine .inl ⟨?_, by simp [exAt, h1, h2]⟩
      rintro r ⟨e, m, he | he, hm, _⟩ <;> injection he with he <;> subst he <;> cases hm
    · rintro x ⟨_, h1, h2⟩
      refine .inl ⟨?_, by simp [exAt, h1, h2]⟩
      rintro r ⟨e, m, he | he, hm, _⟩ <;> injection he with he <;> subst he <;> cases hm
  · refine ⟨by constructor <;> decide, ?_⟩
    rintro x ⟨_, h1, h2⟩
    simp [exAt, h1, h2]

/-- C118: thresholds do not limit what adds up.  Eleven comparisons in a row are hidden by a threshold of 5 %, each of two versions of a call of which the second costs 4 %
more, and together the call costs 53 % more. -/
theorem C118_drift : ∃ cost : Nat → Nat, (∀ i < 11, ∃ r, compareExtrinsics .release idOrder (some (exCall (.value (cost i)))) (some (exCall (.value (cost (i + 1)))))
      (exParams .guessWorst .time) = .ok r ∧ ¬ Kept ⟨fin 5, none, none, none⟩ ⟨str% "f", str% "p", .changed r⟩) ∧ 153 * cost 0 ≤ 100 * cost 11 := by
  refine ⟨fun i => 26 ^ i * 25 ^ (11 - i), fun i hi => kept_of_hides ?_, by decide +kernel⟩
  revert i
  decide +kernel

/-! ### Examples -/

/-- A line with a threshold. -/
def exQuietLine : List Str :=
  [str% "-m", str% "guess-worst", str% "v1", str% "v2", str% "--repo", str% "r", str% "--path-pattern=*", str% "--threshold", str% "5", str% "--no-color",
    str% "--change", str% "changed"]

theorem exQuiet_read : readCommandLine .release (str% "compare" :: str% "commits" :: exQuietLine) = some (false, .compareCommits
    ⟨.guessWorst, .time, false, false, false, false⟩ ⟨.fin 5, some [.changed], none, none⟩ ⟨.human, false, true, none⟩ (str% "v1") (str% "v2")
    [.normal (str% "r")] (str% "*")) := by
  have h : readF64 (str% "5") = some (.fin 5) := by decide +kernel
  have e : readCommandLine .release (str% "compare" :: str% "commits" :: exQuietLine) = ((readF64 (str% "5")).bind fun x => some (false,
      .compareCommits ⟨.guessWorst, .time, false, false, false, false⟩ ⟨x, some [.changed], none, none⟩ ⟨.human, false, true, none⟩ (str% "v1") (str% "v2")
        [.normal (str% "r")] (str% "*"))) := rfl
  rw [e, h]
  rfl

-- It prints nothing.
example : (match (cliMain (W := exGenWorld) .release idOrder exRegex ⟨rustSyn, asciiClass⟩ exPrintEnv (str% "compare" :: str% "commits" :: exQuietLine)
      ⟨str% "start", []⟩).1 with
    | .ok (some (.inl .nothing)) => true
    | _ => false) = true := by decide +kernel

/-- The hypotheses of `C118_commits` are met: for no `n` in the ranges did the transfer become more expensive by more than 5 %. -/
theorem exQuiet_transfer (rt : Runtime) : ∀ x y, first (exLocated 7000000) (str% "a.rs") (str% "transfer") = some x →
    first (exLocated 9000000) (str% "a.rs") (str% "transfer") = some y → Within (some x.fn) (some y.fn) rt →
    GrowsAtMost 5 (x.fn.cost rt .time) (y.fn.cost rt .time) := by
  intro x y hx hy hw'
  obtain ⟨v1, v2, v3, rest, g, h1, h2, hw, hs⟩ := (C86_commits ..).1 exQuiet_read
  have : rest = exQuietLine := by
    cases v1 with
    | true => cases h2
    | false => cases v2 with
      | true => cases h2
      | false => cases h1; rfl
  subst this
  obtain ⟨shown, s', h3, h4⟩ := C118_commits (W := exGenWorld) .release idOrder exRegex asciiClass exPrintEnv _ ⟨str% "start", []⟩ hw hs
    (by rw [← hasDotDot_iff]; decide)
    (exGen_checked _).1 (((C38_listed (W := exGenWorld) [.normal (str% "r")] (str% "*") (2 ^ 64 - 1) ⟨_, []⟩ _ exGenFiles).1 rfl).1)
    (exGen_functions _).1 (exGen_checked _).2
    (((C38_listed (W := exGenWorld) [.normal (str% "r")] (str% "*") (2 ^ 64 - 1) ⟨_, []⟩ _ exGenFiles).1 rfl).1) (exGen_functions _).2
    (by rintro q (h | h) <;> cases h) (exGen_sized _ _) ⟨.inl rfl, fun _ => filters_none _ _ rfl, fun h => nomatch h⟩
    (.inl rfl) (T := 5) rfl (by norm_num) (by norm_num) (fun s h => by cases h; decide)
  have key : (match (cliMain (W := exGenWorld) .release idOrder exRegex ⟨rustSyn, asciiClass⟩ exPrintEnv (str% "compare" :: str% "commits" :: exQuietLine)
      ⟨str% "start", []⟩).1 with
    | .ok (some (.inl .nothing)) => true
    | _ => false) = true := by decide +kernel
  rw [h3] at key
  have hsh : shown = .nothing := by
    cases shown <;> first | rfl | cases key
  subst hsh
  cases hx
  cases hy
  have hp : PlainNames ((exGenFns 7000000)[0]'(by decide)) ((exGenFns 9000000)[0]'(by decide)) := by
    apply plainNames_of
    rintro c ⟨f, hf | hf, hc⟩ <;> cases hf <;> (revert c; decide)
  rcases h4 (str% "a.rs") (str% "transfer") _ _ rfl rfl hp ⟨(fun q h => nomatch h), (fun q h => nomatch h)⟩ id with h | h
  · exact nomatch h.1
  · exact h rt hw'

theorem exPlain : PlainNames ((exGenFns 7000000)[0]'(by decide)) ((exGenFns 9000000)[0]'(by decide)) := by
  apply plainNames_of
  rintro c ⟨f, hf | hf, hc⟩ <;> cases hf <;> (revert c; decide)

/-- The hypotheses of `C118_page` are met, except for the last one: with a threshold of 0 there must be a row for the transfer, because it became more expensive. -/
example : ∃ page, ∃ row ∈ tableRows (tokens page) (str% "sort_me"), row.1.lookup (str% "id") = some (str% "a.rs.transfer") := by
  obtain ⟨c, all, diff, page, -, -, -, h⟩ := C87_example
  refine ⟨page, ?_⟩
  by_contra hno
  rcases C118_page h (.inl rfl) (exGen_sized _ _) (by decide) (p := str% "a.rs") (e := str% "transfer") rfl rfl exPlain
    ⟨(fun q h => nomatch h), (fun q h => nomatch h)⟩ (fun row hrow hid => hno ⟨row, hrow, hid⟩) with ⟨hh, -⟩ | hg
  · rcases hh with ⟨l, h1, h2, h3⟩ | ⟨h1 | h1, -⟩
    · have hl : ∀ c ∈ l, c = str% "n" := by
        intro c hc
        obtain ⟨f, hf | hf, hcf⟩ := h3 c hc <;> cases hf <;> (clear hc; revert c; decide)
      have : l.length ≤ 1 := by
        cases l with
        | nil => decide
        | cons a l =>
          cases l with
          | nil => exact Nat.le_refl _
          | cons b l =>
            rw [hl a (by simp), hl b (by simp)] at h1
            simp at h1
      omega
    · cases h1
    · cases h1
  · have := hg (point (highest _ _)) ⟨rfl, rfl, fun c => ⟨?_, Nat.le_refl _⟩⟩
    swap
    · by_cases hc : str% "n" = c
      · subst hc; decide +kernel
      · simp [lowest, ranges, rangeIn, hc]
    revert this
    unfold GrowsAtMost
    decide +kernel

/-- The calls of the example that are listed with a threshold. -/
theorem exCalls (T : ℚ) : ∃ calls, AllCalls exRegex ⟨fin T, none, none, none⟩ .guessWorst .time (exLocated 7000000) (exLocated 9000000) true calls := by
  obtain ⟨all, s', -, -, h⟩ := C87_commits (W := exGenWorld) .release idOrder exRegex asciiClass [.normal (str% "r")] (str% "v1") (str% "v2")
    ⟨.guessWorst, .time, false, false, false, false⟩ ⟨fin T, none, none, none⟩
    (str% "*") 2 ⟨str% "start", []⟩ (by rw [← hasDotDot_iff]; decide) (exGen_checked _).1 (exGen_listed _) (exGen_functions _).1
    (exGen_checked _).2 (exGen_listed _) (exGen_functions _).2 (by rintro q (h | h) <;> cases h) (exGen_sized _ _)
  refine ⟨_, calls_of h (listed := all.filter (keepChange ⟨fin T, none, none, none⟩)) (fun e => ?_) ((complete_nodup h).sublist (List.filter_sublist.map _))⟩
  rw [List.mem_filter, keepChange_iff]
  simp

/-- What the transfer of the example costs. -/
theorem exTransfer_cost (slope : Nat) (rt : Runtime) : ((exGenFns slope)[0]'(Nat.zero_lt_succ _)).cost rt .time =
    12345000 + (slope * rt.comp (str% "n") + (rt.read + 2 * rt.comp (str% "n") * rt.write)) := by
  show 12345000 + (slope * rt.comp (str% "n") + (1 * rt.read + (2 * rt.comp (str% "n") * rt.write + 0))) = _
  omega

theorem exTransfer_comparable : ¬ Hopeless .guessWorst (exLocated 7000000) (exLocated 9000000) (str% "a.rs") (str% "transfer") := by
  rintro (⟨l, h1, h2, h3⟩ | ⟨h1 | h1, -⟩)
  · have hl : ∀ c ∈ l, c = str% "n" := by
      intro c hc
      obtain ⟨f, hf | hf, hcf⟩ := h3 c hc <;> cases hf <;> (clear hc; revert c; decide)
    have : l.length ≤ 1 := by
      cases l with
      | nil => decide
      | cons a l =>
        cases l with
        | nil => exact Nat.le_refl _
        | cons b l =>
          rw [hl a (by simp), hl b (by simp)] at h1
          simp at h1
    omega
  · cases h1
  · cases h1

/-- The hypotheses of `C118_unlisted` and `C118_alarm` are met by a threshold of half a percent ... -/
example : ∃ rt : Runtime, 1 / 2 - 1 / 100 ≤ |100 * (((((exGenFns 9000000)[0]'(by decide)).cost rt .time : ℕ) : ℚ) - ((exGenFns 7000000)[0]'(by decide)).cost rt .time) /
    ((exGenFns 7000000)[0]'(by decide)).cost rt .time| := by
  obtain ⟨calls, h⟩ := exCalls (1 / 2)
  have hin : (str% "a.rs", str% "transfer") ∈ calls := by
    by_contra hno
    rcases C118_unlisted h (.inl rfl) (exGen_sized _ _) rfl (by norm_num) (by norm_num) (fun s h => nomatch h) rfl rfl exPlain
      ⟨(fun q h => nomatch h), (fun q h => nomatch h)⟩ hno with ⟨h, -⟩ | hg
    · cases h
    · have := hg (point (highest _ _)) ⟨rfl, rfl, fun c => ⟨?_, Nat.le_refl _⟩⟩
      swap
      · by_cases hc : str% "n" = c
        · subst hc; decide +kernel
        · simp [lowest, ranges, rangeIn, hc]
      revert this
      unfold GrowsAtMost
      decide +kernel
  obtain ⟨rt, -, h0 | h1⟩ := C118_alarm h (.inl rfl) (exGen_sized _ _) rfl (by norm_num) rfl rfl exTransfer_comparable hin
  · have := (exTransfer_cost 7000000 rt).symm.trans h0
    omega
  · exact ⟨rt, h1⟩

theorem exSmall_change {o n k : ℕ} (e7 : o = 12345000 + (7000000 * k + (25000000 + 2 * k * 100000000)))
    (e9 : n = 12345000 + (9000000 * k + (25000000 + 2 * k * 100000000))) : ¬ (5 : ℚ) - 1 / 100 ≤ |100 * ((n : ℚ) - o) / o| := by
  intro h1
  rw [e7, e9] at h1
  push_cast at h1
  have hk : (0 : ℚ) ≤ k := Nat.cast_nonneg _
  rw [abs_of_nonneg (by apply div_nonneg <;> linarith), le_div_iff₀ (by linarith)] at h1
  linarith

/-- ... and those of `C118_chain` by one of 5 percent. -/
example (n : Nat) (h1 : 1 ≤ n) (h2 : n ≤ 1000) : ∃ x y, AllSilent exRegex ⟨fin 5, none, none, none⟩ .guessWorst .time (str% "a.rs") (str% "transfer")
    (point fun c => if c = str% "n" then n else 0) x [exLocated 9000000] y := by
  obtain ⟨calls, h⟩ := exCalls 5
  refine ⟨_, _, .step (exLocated 9000000) (olds := exLocated 7000000) rfl rfl exPlain ⟨rfl, rfl, fun c => ?_⟩ (exGen_sized _ _) h (fun hin => ?_) .done⟩
  · by_cases hc : c = str% "n"
    · subst hc
      exact ⟨h1, h2⟩
    · have hc' : ¬ str% "n" = c := fun h => hc h.symm
      simp [point, lowest, ranges, rangeIn, hc, hc']
  · obtain ⟨rt, ⟨hr, hw, -⟩, h0 | h1⟩ := C118_alarm h (.inl rfl) (exGen_sized _ _) rfl (by norm_num) rfl rfl exTransfer_comparable hin
    · have := (exTransfer_cost 7000000 rt).symm.trans h0
      omega
    · have e7 := exTransfer_cost 7000000 rt
      have e9 := exTransfer_cost 9000000 rt
      rw [hr, hw] at e7 e9
      exact exSmall_change e7 e9 h1

end Swc
