/-
C107: asking for less shows less of the same report: filters select rows, and change neither their content nor their order.
-/
import Verif.Props.CompareFiles
import Verif.Props.Sort
import Verif.Props.Git
import Verif.Model.Cli

namespace Swc

open Spec

namespace Spec

/-- `f'` asks for at most what `f` asks for: fewer kinds of changes, a threshold at least as high, fewer files and names. -/
structure Narrower (rx : RegexEngine) (f f' : FilterParams) : Prop where
  kinds : ∀ s, f.change = some s → ∃ s', f'.change = some s' ∧ ∀ k ∈ s', k ∈ s
  threshold : F64.le f.threshold f'.threshold = true
  names : ∀ p e, Selected rx f' p e → Selected rx f p e

/-- The patterns of the filter can be used. -/
def ValidPatterns (rx : RegexEngine) (f : FilterParams) : Prop := ∀ q, f.pallet = some q ∨ f.extrinsic = some q → rx.compile q ≠ none

end Spec

theorem kept_narrower {rx : RegexEngine} {f f' : FilterParams} (h : Narrower rx f f') {e : ExtrinsicDiff} (hk : Kept f' e) : Kept f e := by
  -- the threshold
  have h1 : Kept { f' with threshold := f.threshold } e := by
    have := C36_threshold_monotone [e] { f' with threshold := f.threshold } f' rfl h.threshold
    have hm : e ∈ filterChanges [e] f' := List.mem_filter.2 ⟨List.mem_cons_self, keepChange_iff.2 hk⟩
    exact keepChange_iff.1 (List.mem_filter.1 (this.mem hm)).2
  rcases h1 with h1 | ⟨c, hc, hs, ht⟩
  · exact .inl h1
  · refine .inr ⟨c, hc, fun s hf => ?_, ht⟩
    obtain ⟨s', hs', hsub⟩ := h.kinds s hf
    exact hsub _ (hs s' hs')

theorem before_irrefl (a : Str × Str) : ¬ Before a a := by
  rintro (h | ⟨_, h⟩) <;> exact List.lt_irrefl _ h

theorem before_asymm {a c : Str × Str} (h1 : Before a c) (h2 : Before c a) : False := by
  rcases h1 with h1 | ⟨e1, h1⟩ <;> rcases h2 with h2 | ⟨e2, h2⟩
  · exact List.lt_asymm h1 h2
  · rw [e2] at h1; exact List.lt_irrefl _ h1
  · rw [e1] at h2; exact List.lt_irrefl _ h2
  · exact List.lt_asymm h1 h2

/-- C107: a narrower filter yields exactly the rows of the wider report that it selects, unchanged and in the same order. -/
theorem C107_names (b : Build) (ho : HashOrder) (rx : RegexEngine) (olds news : List ChromaticExtrinsic) (params : CompareParams)
    (f f' : FilterParams) (d d' : List ExtrinsicDiff) (h : compareFiles b ho rx olds news params f = .ok d)
    (h' : compareFiles b ho rx olds news params f' = .ok d') (hn : ∀ p e, Selected rx f' p e → Selected rx f p e) :
    ∃ q : ExtrinsicDiff → Bool, (∀ e, q e = true ↔ Selected rx f' e.file e.name) ∧ d' = d.filter q := by
  classical
  refine ⟨fun e => decide (Selected rx f' e.file e.name), fun e => by simp, ?_⟩
  obtain ⟨s1, m1⟩ := C32_exactly_once b ho rx olds news params f d h
  obtain ⟨s2, m2⟩ := C32_exactly_once b ho rx olds news params f' d' h'
  have same : ∀ x ∈ d, ∀ y ∈ d', x.file = y.file → x.name = y.name → x = y := by
    intro x hx y hy e1 e2
    obtain ⟨o, h1, _⟩ := findExtrinsic_first (d := params.unit) (l := olds) (p := x.file) (e := x.name)
    obtain ⟨n, h2, _⟩ := findExtrinsic_first (d := params.unit) (l := news) (p := x.file) (e := x.name)
    exact C33_local b ho rx rx olds news olds news params f f' d d' h h' x.file x.name o n h1 h2 h1 h2 x y hx hy ⟨rfl, rfl⟩ ⟨e1.symm, e2.symm⟩
  have nd : ∀ {x : List ExtrinsicDiff}, (x.map fun d => (d.file, d.name)).Pairwise Before → x.Nodup := by
    intro x hx
    refine List.Nodup.of_map (fun d : ExtrinsicDiff => (d.file, d.name)) (hx.imp fun {a c} hab => ?_)
    rintro rfl
    exact before_irrefl _ hab
  have hmem : ∀ e, e ∈ d' ↔ e ∈ d.filter (fun e => decide (Selected rx f' e.file e.name)) := by
    intro e
    rw [List.mem_filter, decide_eq_true_eq]
    constructor
    · intro he
      obtain ⟨hp, hsel⟩ := (m2 e.file e.name).1 ⟨e, he, rfl, rfl⟩
      obtain ⟨x, hx, e1, e2⟩ := (m1 e.file e.name).2 ⟨hp, hn _ _ hsel⟩
      rw [← same x hx e he e1 e2, e1, e2]
      exact ⟨hx, hsel⟩
    · rintro ⟨he, hsel⟩
      obtain ⟨hp, _⟩ := (m1 e.file e.name).1 ⟨e, he, rfl, rfl⟩
      obtain ⟨y, hy, e1, e2⟩ := (m2 e.file e.name).2 ⟨hp, hsel⟩
      rw [same e he y hy e1.symm e2.symm]
      exact hy
  refine ((List.perm_ext_iff_of_nodup (nd s2) ((nd s1).filter _)).2 hmem).eq_of_pairwise (le := fun a c => Before (a.file, a.name) (c.file, c.name))
    (fun a c _ _ h1 h2 => (before_asymm h1 h2).elim) (List.pairwise_map.1 s2) ((List.pairwise_map.1 s1).sublist List.filter_sublist)

/-- C107: if the wider comparison succeeds and the patterns of the narrower one can be used, the narrower one succeeds, too. -/
theorem C107_succeeds (b : Build) (ho : HashOrder) (rx : RegexEngine) (olds news : List ChromaticExtrinsic) (params : CompareParams)
    (f f' : FilterParams) (d : List ExtrinsicDiff) (h : compareFiles b ho rx olds news params f = .ok d) (hv : ValidPatterns rx f')
    (hn : ∀ p e, Selected rx f' p e → Selected rx f p e) : ∃ d', compareFiles b ho rx olds news params f' = .ok d' := by
  obtain ⟨names, _, hm, hf⟩ := compareFiles_ok h
  have hcomp : ∀ o : Option Str, (∀ q, o = some q → rx.compile q ≠ none) → ∃ r, rx.compileOpt o = .ok r := by
    intro o ho
    cases o with
    | none => exact ⟨_, rfl⟩
    | some q =>
      simp only [RegexEngine.compileOpt]
      cases hc : rx.compile q with
      | none => exact absurd hc (ho q rfl)
      | some m => exact ⟨_, rfl⟩
  obtain ⟨er, he⟩ := hcomp f'.extrinsic fun q hq => hv q (.inr hq)
  obtain ⟨pr, hp⟩ := hcomp f'.pallet fun q hq => hv q (.inl hq)
  rw [compareFiles_eq, he, hp]
  simp only [Res.bind_ok]
  apply mapM_ok_of_forall
  rintro ⟨p, e⟩ hpe
  obtain ⟨h1, h2⟩ := List.mem_filter.1 hpe
  have hsel : Selected rx f' p e := by
    rw [Bool.and_eq_true, compileOpt_matches hp, compileOpt_matches he] at h2
    exact h2
  obtain ⟨x, _, hx⟩ := forall₂_mem_left hf ((hm p e).2 ⟨mem_namesOf.1 h1, hn _ _ hsel⟩)
  exact ⟨x, hx⟩

/-- C107: the report for a narrower filter consists of exactly those rows of the wider report that the narrower filter selects, unchanged and in
the same order. -/
theorem C107_report (b : Build) (ho : HashOrder) (rx : RegexEngine) (olds news : List ChromaticExtrinsic) (params : CompareParams)
    (f f' : FilterParams) (hw : Narrower rx f f') (d d' : List ExtrinsicDiff) (h : compareFiles b ho rx olds news params f = .ok d)
    (h' : compareFiles b ho rx olds news params f' = .ok d') :
    ∃ q : ExtrinsicDiff → Bool, (∀ e, q e = true ↔ Selected rx f' e.file e.name ∧ Kept f' e) ∧
      sortChanges (filterChanges d' f') = (sortChanges (filterChanges d f)).filter q := by
  obtain ⟨q, hq, hd⟩ := C107_names b ho rx olds news params f f' d d' h h' hw.names
  refine ⟨fun e => q e && keepChange f' e, fun e => by rw [Bool.and_eq_true, hq, keepChange_iff], ?_⟩
  rw [← C37_part, hd]
  congr 1
  unfold filterChanges
  rw [List.filter_filter, List.filter_filter]
  refine List.filter_congr fun e _ => ?_
  by_cases hk : keepChange f' e = true
  · rw [hk, keepChange_iff.2 (kept_narrower hw (keepChange_iff.1 hk))]
    simp
  · rw [Bool.not_eq_true] at hk
    rw [hk]
    simp

/-- C107: the same for the comparison of two commits. -/
theorem C107_commits {W : World} (b : Build) (ho : HashOrder) (rx : RegexEngine) (env : Env) (repo : Path) (old new : Str) (params : CompareParams)
    (f f' : FilterParams) (hw : Narrower rx f f') (hv : ValidPatterns rx f') (pattern : Str) (maxFiles : Nat) (s s1 : Run W) (d : List ExtrinsicDiff)
    (h : compareCommits b ho rx env repo old new params f pattern maxFiles s = (.ok d, s1)) :
    ∃ d' s2, compareCommits b ho rx env repo old new params f' pattern maxFiles s = (.ok d', s2) ∧ s2.state = s1.state ∧ s2.log = s1.log ∧
      ∃ q : ExtrinsicDiff → Bool, (∀ e, q e = true ↔ Selected rx f' e.file e.name ∧ Kept f' e) ∧
        sortChanges (filterChanges d' f') = (sortChanges (filterChanges d f)).filter q := by
  obtain ⟨hdot, ps, G1, st1, files1, olds, G2, st2, files2, news, k1, k2, k3, k4, k5, k6, k7, k8, k9, k10⟩ := (C41_compare_commits ..).1 h
  obtain ⟨d', hd'⟩ := C107_succeeds b ho rx olds news params f f' d k8 hv hw.names
  refine ⟨d', s1, (C41_compare_commits ..).2 ⟨hdot, ps, G1, st1, files1, olds, G2, st2, files2, news, k1, k2, k3, k4, k5, k6, k7, hd', k9, k10⟩,
    rfl, rfl, C107_report b ho rx olds news params f f' hw d d' k8 hd'⟩

theorem mapM_ok_sublist {α β : Type} {g : α → Res β} {l l' : List α} {r r' : List β} (h : l.mapM g = .ok r) (h' : l'.mapM g = .ok r')
    (hs : l'.Sublist l) : r'.Sublist r := by
  have f1 := mapM_ok_iff.1 h
  have f2 := mapM_ok_iff.1 h'
  clear h h'
  induction hs generalizing r r' with
  | slnil => cases f1; cases f2; exact .slnil
  | cons a _ ih =>
    cases f1 with
    | cons _ f1 => exact (ih f1 f2).cons _
  | cons_cons a _ ih =>
    cases f1 with
    | cons e1 f1 =>
      cases f2 with
      | cons e2 f2 =>
        rw [e1] at e2
        injection e2 with e2
        rw [e2]
        exact (ih f1 f2).cons_cons _

theorem showDiff_table {penv : PrintEnv} {fp : FormatParams} {f : FilterParams} {unit : Dimension} {d : List ExtrinsicDiff} {t : TableOut} {m : Bool}
    (h : showDiff penv fp f unit d = .ok (.table t m)) :
    ∃ errors changes, ((sortChanges (filterChanges d f)).reverse.filter fun e => e.error.isSome).mapM (errorRow penv fp) = .ok errors ∧
      (termRows (sortChanges (filterChanges d f)).reverse).mapM (fun p => changeRow penv fp unit p.1 p.2) = .ok changes ∧
      t.rows = errors ++ changes := by
  unfold showDiff at h
  generalize (sortChanges (filterChanges d f)).reverse = l at h ⊢
  have key : ∀ mm, (do let t ← printChangesHuman penv l fp unit; Res.ok (match t with | some t => Shown.table t mm | none => .nothing)) =
      Res.ok (.table t m) → ∃ errors changes, (l.filter fun e => e.error.isSome).mapM (errorRow penv fp) = .ok errors ∧
      (termRows l).mapM (fun p => changeRow penv fp unit p.1 p.2) = .ok changes ∧ t.rows = errors ++ changes := by
    intro mm hk
    unfold printChangesHuman at hk
    by_cases he : l.isEmpty = true
    · rw [if_pos he] at hk; cases hk
    · rw [if_neg he] at hk
      generalize (l.filter fun e => e.error.isSome).mapM (errorRow penv fp) = r1 at hk ⊢
      generalize (termRows l).mapM (fun p => changeRow penv fp unit p.1 p.2) = r2 at hk ⊢
      cases r1 with
      | ok e =>
        cases r2 with
        | ok c =>
          refine ⟨e, c, rfl, rfl, ?_⟩
          simp only [Res.bind_ok] at hk
          injection hk with hk
          injection hk with hk
          rw [← hk]
        | err _ => cases hk
        | panic => cases hk
        | diverge => cases hk
      | err _ => cases hk
      | panic => cases hk
      | diverge => cases hk
  unfold printChanges at h
  cases hf : fp.format <;> rw [hf] at h
  · exact key _ h
  · cases h
  · dsimp only at h
    injection h with h
    by_cases he : l.isEmpty = true
    · rw [if_pos he] at h; cases h
    · rw [if_neg he] at h; cases h
  · cases h
  · exact key _ h

/-- C107: the table that the tool prints for a narrower filter is a part of the one for the wider filter: some of its error rows, then some
of its other rows, in the same order. -/
theorem C107_table (b : Build) (ho : HashOrder) (rx : RegexEngine) (penv : PrintEnv) (olds news : List ChromaticExtrinsic) (params : CompareParams)
    (fp : FormatParams) (f f' : FilterParams) (hw : Narrower rx f f') (d d' : List ExtrinsicDiff)
    (h : compareFiles b ho rx olds news params f = .ok d) (h' : compareFiles b ho rx olds news params f' = .ok d') (t t' : TableOut) (m m' : Bool)
    (ht : showDiff penv fp f params.unit d = .ok (.table t m)) (ht' : showDiff penv fp f' params.unit d' = .ok (.table t' m')) :
    ∃ errors changes errors' changes', t.rows = errors ++ changes ∧ t'.rows = errors' ++ changes' ∧
      (∀ r, r ∈ errors ∨ r ∈ errors' → r[4]? = some (str% "ERROR")) ∧ errors'.Sublist errors ∧ changes'.Sublist changes := by
  obtain ⟨q, _, hsub⟩ := C107_report b ho rx olds news params f f' hw d d' h h'
  obtain ⟨e, c, e1, e2, e3⟩ := showDiff_table ht
  obtain ⟨e', c', e1', e2', e3'⟩ := showDiff_table ht'
  have herr : ∀ x r, errorRow penv fp x = .ok r → r[4]? = some (str% "ERROR") := by
    intro x r hr
    unfold errorRow at hr
    generalize filterPath penv fp x.file = y at hr
    cases y with
    | ok y =>
      simp only [Res.bind_ok] at hr
      injection hr with hr
      rw [← hr]
      rfl
    | err _ => cases hr
    | panic => cases hr
    | diverge => cases hr
  have hs : (sortChanges (filterChanges d' f')).reverse.Sublist (sortChanges (filterChanges d f)).reverse := by
    rw [hsub]
    exact List.filter_sublist.reverse
  refine ⟨e, c, e', c', e3, e3', ?_, mapM_ok_sublist e1 e1' (hs.filter _), mapM_ok_sublist e2 e2' (hs.filterMap _)⟩
  rintro r (hr | hr)
  · obtain ⟨x, _, hx⟩ := forall₂_mem_right (mapM_ok_iff.1 e1) hr
    exact herr x r hx
  · obtain ⟨x, _, hx⟩ := forall₂_mem_right (mapM_ok_iff.1 e1') hr
    exact herr x r hx

/-! ### A concrete case -/

/-- Only the file `b`, only changes of at least 10 percent. -/
def exNarrow : FilterParams := ⟨.fin 10, some [.changed], none, some (str% "b")⟩

theorem exNarrow_narrower : Narrower exRegex exFilter exNarrow :=
  ⟨(fun _ h => nomatch h), by decide, fun _ _ _ => ⟨(fun _ h => nomatch h), fun _ h => nomatch h⟩⟩

example : ValidPatterns exRegex exNarrow := by
  rintro q (h | h)
  · injection h with h
    subst h
    simp [exRegex]
  · cases h

example : (compareFiles .release idOrder exRegex exOlds exNews (exParams .base .time) exFilter).map
    (fun d => (sortChanges (filterChanges d exFilter)).map exShow) =
    .ok [⟨str% "b", str% "h", none, some 25025000000, some .added, true⟩, ⟨str% "a", str% "g", some 5, none, some .removed, false⟩,
         ⟨str% "b", str% "f", some 10, some 20, some .changed, false⟩] := by decide +kernel

example : (compareFiles .release idOrder exRegex exOlds exNews (exParams .base .time) exNarrow).map
    (fun d => (sortChanges (filterChanges d exNarrow)).map exShow) =
    .ok [⟨str% "b", str% "f", some 10, some 20, some .changed, false⟩] := by decide +kernel

-- Two errors and a change: the errors are reversed, in the part as in the whole.
example : (sortChanges ([exError 'b', exEntry 'a' .changed (.fin 5), exError 'f', exError 'g'].filter fun d => d.name != ['f'])).flatMap (·.name) =
    str% "gba" := by decide +kernel

end Swc
