/-
C87: the report on two revisions whose files are generated weight files, in full: which calls it has, which of them are errors, and the numbers.
-/
import Verif.Spec.Report
import Verif.Props.WeightTextReport
import Verif.Props.ConstText
import Verif.Props.Messages

namespace Swc

open Spec Term

namespace Gen

/-! ### The versions of a call -/

/-- The version of a call that is read from a function. -/
inductive Version : Option Located → Option ChromaticExtrinsic → Prop
  | none : Version none none
  | some {x : Located} {e : ChromaticExtrinsic} (hok : x.fn.Ok x.style) (hr : ReadAs' x.style x.file x.fn e) : Version (some x) (some e)

section

variable {o n : Option Located} {a c : Option ChromaticExtrinsic}

theorem rangeOf_version (h : Version o a) (d : Dimension) (x : Str) : rangeOf (a.map (inDim d)) x = (o.map (·.fn)).bind fun f => rangeIn x f.docs := by
  cases h with
  | none => rfl
  | some hok hr => exact rangeOf_read hr.1 d x

theorem annotated_ranges (ho : Version o a) (hn : Version n c) (d : Dimension) (x : Str) (r : ComponentRange) :
    Annotated (a.map (inDim d)) (c.map (inDim d)) x r ↔ r ∈ ranges (o.map (·.fn)) (n.map (·.fn)) x := by
  rw [annotated_iff, rangeOf_version ho, rangeOf_version hn, ranges]
  cases o <;> cases n <;> simp [List.mem_filterMap]

theorem minInst_lowest' (ho : Version o a) (hn : Version n c) (d : Dimension) (x : Str) :
    MinInst (a.map (inDim d)) (c.map (inDim d)) x (lowest (o.map (·.fn)) (n.map (·.fn)) x) := by
  simp only [MinInst, annotated_ranges ho hn]
  unfold lowest
  generalize ranges _ _ x = l
  cases h : (l.map (·.min)).min? with
  | none =>
    rw [List.min?_eq_none_iff, List.map_eq_nil_iff] at h
    subst h
    simp
  | some k =>
    right
    rw [List.min?_eq_some_iff] at h
    obtain ⟨h1, h2⟩ := h
    obtain ⟨r, hr, e⟩ := List.mem_map.1 h1
    exact ⟨⟨r, hr, e⟩, fun r hr => h2 _ (List.mem_map_of_mem hr)⟩

theorem maxInst_highest' (ho : Version o a) (hn : Version n c) (d : Dimension) (x : Str) :
    MaxInst (a.map (inDim d)) (c.map (inDim d)) x (highest (o.map (·.fn)) (n.map (·.fn)) x) := by
  simp only [MaxInst, annotated_ranges ho hn]
  unfold highest
  generalize ranges _ _ x = l
  cases h : (l.map (·.max)).max? with
  | none =>
    rw [List.max?_eq_none_iff, List.map_eq_nil_iff] at h
    subst h
    simp
  | some k =>
    right
    rw [List.max?_eq_some_iff] at h
    obtain ⟨h1, h2⟩ := h
    obtain ⟨r, hr, e⟩ := List.mem_map.1 h1
    exact ⟨⟨r, hr, e⟩, fun r hr => h2 _ (List.mem_map_of_mem hr)⟩

theorem ranges_wf (ho : Version o a) (hn : Version n c) (x : Str) : ∀ r ∈ ranges (o.map (·.fn)) (n.map (·.fn)) x, r.min ≤ r.max ∧ r.max < 2 ^ 32 := by
  intro r hr
  unfold ranges at hr
  obtain ⟨f, hf, hr⟩ := List.mem_filterMap.1 hr
  have : ∀ {v : Option Located} {e : Option ChromaticExtrinsic}, Version v e → f ∈ (v.map (·.fn)).toList → ∀ l ∈ f.docs, l.Ok := by
    intro v e hv hf
    cases hv with
    | none => cases hf
    | some hok _ =>
      simp only [Option.map_some, Option.toList_some, List.mem_singleton] at hf
      subst hf
      exact hok.2.1
  rcases List.mem_append.1 hf with hf | hf
  · exact rangeIn_wf (this ho hf) hr
  · exact rangeIn_wf (this hn hf) hr

theorem lowest_le_highest' (ho : Version o a) (hn : Version n c) (x : Str) :
    lowest (o.map (·.fn)) (n.map (·.fn)) x ≤ highest (o.map (·.fn)) (n.map (·.fn)) x ∧ highest (o.map (·.fn)) (n.map (·.fn)) x < 2 ^ 32 := by
  have hwf := ranges_wf ho hn x
  unfold lowest highest
  generalize ranges _ _ x = l at hwf
  cases l with
  | nil => simp
  | cons r l =>
    cases h : ((r :: l).map (·.min)).min? with
    | none => simp at h
    | some k =>
      cases h' : ((r :: l).map (·.max)).max? with
      | none => simp at h'
      | some k' =>
        rw [List.min?_eq_some_iff] at h
        rw [List.max?_eq_some_iff] at h'
        obtain ⟨q, hq, e⟩ := List.mem_map.1 h'.1
        have h1 := h.2 _ (List.mem_map_of_mem (List.mem_cons_self (a := r) (l := l)))
        have h2 := h'.2 _ (List.mem_map_of_mem (List.mem_cons_self (a := r) (l := l)))
        have h3 := (hwf r List.mem_cons_self).1
        have h4 := (hwf q hq).2
        simp only [Option.getD_some]
        omega

/-! ### Components -/

theorem occurs_summand (style : Style) (s : Summand) (x : Str) (h1 : x ≠ str% "READ") (h2 : x ≠ str% "WRITE") :
    Occurs x (summandT style s) ↔ x ∈ s.comps := by
  have hv : ∀ (y : Str), Occurs x (Term.var (T := Weight) y) ↔ x = y := fun y => ⟨fun h => by cases h; rfl, fun h => h ▸ .here⟩
  have hval : ∀ w, ¬ Occurs x (Term.value (T := Weight) w) := fun w h => by cases h
  have hmul : ∀ l r : ChromaticTerm, Occurs x (.mul l r) ↔ Occurs x l ∨ Occurs x r := fun l r =>
    ⟨fun h => by cases h with | mulL h => exact .inl h | mulR h => exact .inr h, fun h => h.elim .mulL .mulR⟩
  have hcount : ∀ n, ¬ Occurs x (countT style n) := fun n h => by cases style <;> cases h
  have hweight : ∀ t p, ¬ Occurs x (weightT style t p) := fun t p h => by cases style <;> cases h
  cases s <;> simp [summandT, hmul, hv, hval, hcount, hweight, h1, h2, Summand.comps]

theorem occurs_body (style : Style) (f : GenFn) (x : Str) (h1 : x ≠ str% "READ") (h2 : x ≠ str% "WRITE") :
    Occurs x (bodyT style f) ↔ x ∈ f.comps := by
  have hadd : ∀ l r : ChromaticTerm, Occurs x (.add l r) ↔ Occurs x l ∨ Occurs x r := fun l r =>
    ⟨fun h => by cases h with | addL h => exact .inl h | addR h => exact .inr h, fun h => h.elim .addL .addR⟩
  have key : ∀ (l : List Summand) (t : ChromaticTerm),
      Occurs x (l.foldl (fun t s => .add t (summandT style s)) t) ↔ Occurs x t ∨ x ∈ l.flatMap Summand.comps := by
    intro l
    induction l with
    | nil => simp
    | cons s l ih =>
      intro t
      rw [List.foldl_cons, ih, hadd, occurs_summand style s x h1 h2, List.flatMap_cons, List.mem_append, or_assoc]
  rw [bodyT, key, GenFn.comps]
  have : ¬ Occurs x (weightT style f.time f.proof) := fun h => by cases style <;> cases h
  simp [this]

theorem comps_ne {x : Located} (h : x.fn.Ok x.style) {y : Str} (hy : y ∈ x.fn.comps) : y ≠ str% "READ" ∧ y ≠ str% "WRITE" := by
  obtain ⟨s, hs, hy⟩ := List.mem_flatMap.1 hy
  exact ((h.2.2.2.2.1 s hs).1 y hy).2

theorem component_param (ho : Version o a) (hn : Version n c) (d : Dimension) (x : Str) :
    Component (a.map (inDim d)) (c.map (inDim d)) x ↔ Param (o.map (·.fn)) (n.map (·.fn)) x := by
  have key : ∀ {v : Option Located} {e : Option ChromaticExtrinsic}, Version v e →
      ((∃ y, e.map (inDim d) = some y ∧ Occurs x y.term) ∧ x ≠ str% "READ" ∧ x ≠ str% "WRITE" ↔ ∃ f, v.map (·.fn) = some f ∧ x ∈ f.comps) := by
    intro v e hv
    cases hv with
    | none => simp
    | @some y e hok hr =>
      simp only [Option.map_some, Option.some.injEq, exists_eq_left']
      rw [show (inDim d e).term = project d e.term from rfl, occurs_project, hr.2.2]
      constructor
      · rintro ⟨h, h1, h2⟩
        exact (occurs_body _ _ x h1 h2).1 h
      · intro h
        obtain ⟨h1, h2⟩ := comps_ne hok h
        exact ⟨(occurs_body _ _ x h1 h2).2 h, h1, h2⟩
  have k1 := key ho
  have k2 := key hn
  unfold Component Param
  constructor
  · rintro ⟨⟨e, h | h, hx⟩, hne⟩
    · obtain ⟨f, hf, hx⟩ := k1.1 ⟨⟨e, h, hx⟩, hne⟩
      exact ⟨f, .inl hf, hx⟩
    · obtain ⟨f, hf, hx⟩ := k2.1 ⟨⟨e, h, hx⟩, hne⟩
      exact ⟨f, .inr hf, hx⟩
  · rintro ⟨f, hf | hf, hx⟩
    · obtain ⟨⟨e, h, hx⟩, hne⟩ := k1.2 ⟨f, hf, hx⟩
      exact ⟨⟨e, .inl h, hx⟩, hne⟩
    · obtain ⟨⟨e, h, hx⟩, hne⟩ := k2.2 ⟨f, hf, hx⟩
      exact ⟨⟨e, .inr h, hx⟩, hne⟩

theorem refused_incomparable (ho : Version o a) (hn : Version n c) (d : Dimension) (m : CompareMethod) :
    Refused m (a.map (inDim d)) (c.map (inDim d)) ↔ Incomparable m (o.map (·.fn)) (n.map (·.fn)) := by
  unfold Refused Incomparable Exact Unambiguous MoreThan
  simp only [component_param ho hn, annotated_ranges ho hn]
  refine or_congr Iff.rfl (and_congr Iff.rfl (exists_congr fun x => and_congr Iff.rfl (not_congr (exists_congr fun r => ?_))))
  constructor
  · rintro ⟨h1, h2⟩
    exact ⟨List.ne_nil_of_mem h1, h2⟩
  · rintro ⟨h1, h2⟩
    obtain ⟨r', hr⟩ := List.exists_mem_of_ne_nil _ h1
    exact ⟨h2 r' hr ▸ hr, h2⟩

/-! ### Costs at a corner -/

theorem component_or' {a c : Option SimpleExtrinsic} {e : SimpleExtrinsic} (he : a = some e ∨ c = some e) {x : Str} (hx : Occurs x e.term) :
    Component a c x ∨ x = str% "READ" ∨ x = str% "WRITE" := by
  by_cases h1 : x = str% "READ"
  · exact .inr (.inl h1)
  by_cases h2 : x = str% "WRITE"
  · exact .inr (.inr h2)
  exact .inl ⟨⟨e, he, hx⟩, h1, h2⟩

/-- One of the two versions, and what is read from it. -/
def Side (o n : Option Located) (a c : Option ChromaticExtrinsic) (y : Located) (e : ChromaticExtrinsic) : Prop :=
  (o = some y ∧ a = some e) ∨ (n = some y ∧ c = some e)

theorem side_read (ho : Version o a) (hn : Version n c) {y : Located} {e : ChromaticExtrinsic} (h : Side o n a c y e) :
    y.fn.Ok y.style ∧ ReadAs' y.style y.file y.fn e := by
  rcases h with ⟨rfl, rfl⟩ | ⟨rfl, rfl⟩
  · cases ho with | some h1 h2 => exact ⟨h1, h2⟩
  · cases hn with | some h1 h2 => exact ⟨h1, h2⟩

theorem side_mem {y : Located} {e : ChromaticExtrinsic} (h : Side o n a c y e) (d : Dimension) :
    a.map (inDim d) = some (inDim d e) ∨ c.map (inDim d) = some (inDim d e) := by
  rcases h with ⟨rfl, rfl⟩ | ⟨rfl, rfl⟩
  · exact .inl rfl
  · exact .inr rfl

theorem side_fn {y : Located} {e : ChromaticExtrinsic} (h : Side o n a c y e) : o.map (·.fn) = some y.fn ∨ n.map (·.fn) = some y.fn := by
  rcases h with ⟨rfl, rfl⟩ | ⟨rfl, rfl⟩
  · exact .inl rfl
  · exact .inr rfl

theorem corner_le (ho : Version o a) (hn : Version n c) {d : Dimension} {m : CompareMethod} {s : SimpleScope}
    (hc : Corner d m (a.map (inDim d)) (c.map (inDim d)) s) {x : Str} (hx : Component (a.map (inDim d)) (c.map (inDim d)) x) :
    assignment s x = lowest (o.map (·.fn)) (n.map (·.fn)) x ∨ assignment s x = highest (o.map (·.fn)) (n.map (·.fn)) x := by
  obtain ⟨k, hk, h⟩ := hc.2.2.2.1 x hx
  rw [assignment, hk]
  show k = _ ∨ k = _
  have hlo : MinInst (a.map (inDim d)) (c.map (inDim d)) x k → k = lowest (o.map (·.fn)) (n.map (·.fn)) x :=
    fun h => minInst_unique h (minInst_lowest' ho hn d x)
  have hhi : MaxInst (a.map (inDim d)) (c.map (inDim d)) x k → k = highest (o.map (·.fn)) (n.map (·.fn)) x :=
    fun h => maxInst_unique h (maxInst_highest' ho hn d x)
  cases m
  · exact h.elim (fun h => .inl (hlo h)) fun h => .inl (hlo h)
  · exact h.elim (fun h => .inl (hlo h)) fun h => .inr (hhi h)
  · exact h.elim (fun h => .inl (hlo h)) fun h => .inr (hhi h)
  · exact h.elim (fun h => .inr (hhi h)) fun h => .inr (hhi h)
  · exact h.elim (fun h => .inr (hhi h)) fun h => .inr (hhi h)

theorem costLimit_le (m : CompareMethod) : costLimit m ≤ 2 ^ 128 := by
  cases m <;> decide

/-- At a corner the equations have the costs of the functions for the parameters of the corner. -/
theorem corner_cost (ho : Version o a) (hn : Version n c) {d : Dimension} {m : CompareMethod} {s : SimpleScope}
    (hc : Corner d m (a.map (inDim d)) (c.map (inDim d)) s) (hsz : Sized m (o.map (·.fn)) (n.map (·.fn)) d) (b : Build) {rt : Runtime}
    (hr : rt.read = 25000000) (hw : rt.write = 100000000)
    (hrt : ∀ x, Component (a.map (inDim d)) (c.map (inDim d)) x → rt.comp x = assignment s x)
    {y : Located} {e : ChromaticExtrinsic} (hy : Side o n a c y e) : eval b (inDim d e).term s = .ok (y.fn.cost rt d) := by
  obtain ⟨hok, hra, htame, _⟩ := side_read ho hn hy
  have hmem := side_mem hy d
  have htopc := env_costs (rt := point (highest (o.map (·.fn)) (n.map (·.fn)))) rfl rfl d
  have hrtc := env_costs hr hw d
  have hread : assignment s (str% "READ") = readCost d := by rw [assignment, hc.2.1]
  have hwrite : assignment s (str% "WRITE") = writeCost d := by rw [assignment, hc.2.2.1]
  have hsame : ∀ x, Occurs x (inDim d e).term → assignment s x = rt.env d x := by
    intro x hx
    rcases component_or' hmem hx with h | rfl | rfl
    · rw [env_comp _ _ h.2.1 h.2.2, hrt x h]
    · rw [hread, hrtc.1]
    · rw [hwrite, hrtc.2]
  have htop : ∀ x, Occurs x (inDim d e).term → assignment s x ≤ (point (highest (o.map (·.fn)) (n.map (·.fn)))).env d x := by
    intro x hx
    rcases component_or' hmem hx with h | rfl | rfl
    · rw [env_comp _ _ h.2.1 h.2.2]
      rcases corner_le ho hn hc h with e | e <;> rw [e]
      · exact (lowest_le_highest' ho hn x).1
      · exact Nat.le_refl _
    · rw [hread, htopc.1]
    · rw [hwrite, htopc.2]
  have hfit : Fits (assignment s) (inDim d e).term := by
    refine fits_mono htop fun u hu => ?_
    have hle : ∀ x, (point (highest (o.map (·.fn)) (n.map (·.fn)))).comp x ≤ 2 ^ 32 := fun x => le_of_lt (lowest_le_highest' ho hn x).2
    have := (htame d).2 _ (env_le (rt := point (highest (o.map (·.fn)) (n.map (·.fn)))) (by simp [point]) (by simp [point])
      hle d) u hu
    refine Nat.lt_of_le_of_lt this ?_
    rw [Nat.max_lt]
    refine ⟨by decide, ?_⟩
    have h2 := Nat.lt_of_lt_of_le (hsz _ (side_fn hy)) (costLimit_le m)
    rw [← cost_denote hra] at h2
    exact h2
  rw [C01_eval_exact b s _ _ (corner_assigns hc hmem) hfit, denote_congr hsame, cost_denote hra]

/-- The variables that are listed. -/
theorem lists_at (ho : Version o a) (hn : Version n c) {d : Dimension} {m : CompareMethod} {s : SimpleScope}
    (hc : Corner d m (a.map (inDim d)) (c.map (inDim d)) s) {rt : Runtime} (hr : rt.read = 25000000) (hw : rt.write = 100000000)
    (hrt : ∀ x, Component (a.map (inDim d)) (c.map (inDim d)) x → rt.comp x = assignment s x) :
    ListsAt (o.map (·.fn)) (n.map (·.fn)) d rt s := by
  have hrtc := env_costs hr hw d
  have hall : ∀ x, x = str% "READ" ∨ x = str% "WRITE" ∨ Param (o.map (·.fn)) (n.map (·.fn)) x → binding s x = some (.scalar (rt.env d x)) := by
    rintro x (rfl | rfl | h)
    · rw [hc.2.1, hrtc.1]
    · rw [hc.2.2.1, hrtc.2]
    · have h := (component_param ho hn d x).2 h
      obtain ⟨k, hk, -⟩ := hc.2.2.2.1 x h
      rw [env_comp _ _ h.2.1 h.2.2, hrt x h, assignment, hk]
  refine ⟨List.pairwise_map.2 (hc.1.imp fun h => cmpStr_lt.1 h), fun x u => ?_⟩
  constructor
  · intro h
    have hx : x = str% "READ" ∨ x = str% "WRITE" ∨ Param (o.map (·.fn)) (n.map (·.fn)) x := by
      rw [← component_param ho hn d x]
      exact hc.2.2.2.2 x u h
    rw [hall x hx] at h
    exact ⟨hx, (Option.some.inj h).symm⟩
  · rintro ⟨hx, rfl⟩
    exact hall x hx

/-- What a comparison reports, given the parameters of its corner. -/
theorem reports_at (ho : Version o a) (hn : Version n c) {d : Dimension} {m : CompareMethod} {s : SimpleScope}
    (hc : Corner d m (a.map (inDim d)) (c.map (inDim d)) s) (hsz : Sized m (o.map (·.fn)) (n.map (·.fn)) d) {b : Build} {rt : Runtime}
    (hr : rt.read = 25000000) (hw : rt.write = 100000000)
    (hrt : ∀ x, Component (a.map (inDim d)) (c.map (inDim d)) x → rt.comp x = assignment s x) {r : TermChange}
    (h : ChangeAt b (a.map (inDim d)) (c.map (inDim d)) s r) : ReportsAt (o.map (·.fn)) (n.map (·.fn)) d rt r := by
  obtain ⟨h0, h1, h2, h3⟩ := h
  have e1 : r.oldV = (o.map (·.fn)).map (·.cost rt d) := by
    cases ho with
    | none => exact h1
    | some hok hra =>
      obtain ⟨k, hk, hk'⟩ := h1
      rw [hk, corner_cost (.some hok hra) hn hc hsz b hr hw hrt (.inl ⟨rfl, rfl⟩)] at *
      cases hk'
      rfl
  have e2 : r.newV = (n.map (·.fn)).map (·.cost rt d) := by
    cases hn with
    | none => exact h2
    | some hok hra =>
      obtain ⟨k, hk, hk'⟩ := h2
      rw [hk, corner_cost ho (.some hok hra) hc hsz b hr hw hrt (.inr ⟨rfl, rfl⟩)] at *
      cases hk'
      rfl
  exact ⟨e1, e2, by rw [h3, e1, e2], h0 ▸ lists_at ho hn hc hr hw hrt⟩

theorem low_eq {f g : GenFn} : lowest (some f) (some g) = lowestIn f g := by
  funext x
  unfold lowest ranges lowestIn
  cases h1 : rangeIn x f.docs <;> cases h2 : rangeIn x g.docs <;> simp [h1, h2, List.min?]

theorem high_eq {f g : GenFn} : highest (some f) (some g) = highestIn f g := by
  funext x
  unfold highest ranges highestIn
  cases h1 : rangeIn x f.docs <;> cases h2 : rangeIn x g.docs <;> simp [h1, h2, List.max?]

theorem within_iff {f g : GenFn} {rt : Runtime} : Within (some f) (some g) rt ↔ InRanges f g rt := by
  unfold Within InRanges
  rw [low_eq, high_eq]

/-- The numbers that are reported. -/
theorem reported (ho : Version o a) (hn : Version n c) {b : Build} {hash : HashOrder} {params : CompareParams}
    (hsz : Sized params.method (o.map (·.fn)) (n.map (·.fn)) params.unit) {r : TermChange}
    (h : compareExtrinsics b hash (a.map (inDim params.unit)) (c.map (inDim params.unit)) params = .ok r) :
    Reported params.method (o.map (·.fn)) (n.map (·.fn)) params.unit r := by
  obtain ⟨hc, hat, _⟩ := C25_reported_is_corner b hash _ _ params r h
  have hhigh : params.method = .asymptotic ∨ params.method = .exactAsymptotic →
      ReportsAt (o.map (·.fn)) (n.map (·.fn)) params.unit (point (highest (o.map (·.fn)) (n.map (·.fn)))) r := by
    intro hm
    refine reports_at ho hn hc hsz rfl rfl (fun x hx => ?_) hat
    obtain ⟨k, hk, h⟩ := hc.2.2.2.1 x hx
    rw [assignment, hk]
    refine (maxInst_unique (maxInst_highest' ho hn params.unit x) ?_ : _ = k)
    rcases hm with e | e <;> rw [e] at h <;> exact h.elim id id
  have hlow : params.method = .base ∨ (a.map (inDim params.unit) = none ∨ c.map (inDim params.unit) = none) ∧ (params.method = .guessWorst ∨ params.method = .exactWorst) →
      ReportsAt (o.map (·.fn)) (n.map (·.fn)) params.unit (point (lowest (o.map (·.fn)) (n.map (·.fn)))) r := by
    intro hm
    refine reports_at ho hn hc hsz rfl rfl (fun x hx => ?_) hat
    rcases hm with hm | ⟨hone, hm⟩
    · obtain ⟨k, hk, h⟩ := hc.2.2.2.1 x hx
      rw [assignment, hk]
      refine (minInst_unique (minInst_lowest' ho hn params.unit x) ?_ : _ = k)
      rw [hm] at h
      exact h.elim id id
    · have := C25_single_version_low b hash _ _ hone params r h x hx _ _
        (by rcases hm with e | e <;> rw [e] <;> exact minInst_lowest' ho hn params.unit x)
        (by rcases hm with e | e <;> rw [e] <;> exact maxInst_highest' ho hn params.unit x) (lowest_le_highest' ho hn x).1
      rw [assignment, this]
      rfl
  have hworst : (params.method = .guessWorst ∨ params.method = .exactWorst) →
      (match o.map (·.fn), n.map (·.fn) with
      | some f, some g =>
        (∀ rt, Within (some f) (some g) rt → rank (percent (f.cost rt params.unit) (g.cost rt params.unit)) ≤ rank r.percent) ∧
        ∃ rt, Within (some f) (some g) rt ∧ ReportsAt (some f) (some g) params.unit rt r
      | old, new => ReportsAt old new params.unit (point (lowest old new)) r) := by
    intro hm
    cases ho with
    | none => exact hlow (.inr ⟨.inl rfl, hm⟩)
    | some hok hra =>
      cases hn with
      | none => exact hlow (.inr ⟨.inr rfl, hm⟩)
      | some hok' hra' =>
        have hlim : costLimit params.method = 2 ^ 53 := by rcases hm with e | e <;> rw [e] <;> rfl
        have hsz' := hsz
        rw [Sized, hlim] at hsz'
        simp only [Option.map_some] at hsz'
        rw [high_eq] at hsz'
        obtain ⟨h1, -⟩ := worst_change hok hok' hra hra' b hash params hm ⟨hsz' _ (.inl rfl), hsz' _ (.inr rfl)⟩ r h
        refine ⟨fun rt hrt => h1 rt (within_iff.1 hrt), ?_⟩
        classical
        rename_i y1 z1 y2 z2
        refine ⟨⟨fun x => if Component (some (inDim params.unit z1)) (some (inDim params.unit z2)) x then assignment r.scope x
            else lowest (some y1.fn) (some y2.fn) x, 25000000, 100000000⟩, ⟨rfl, rfl, fun x => ?_⟩,
          reports_at (.some hok hra) (.some hok' hra') hc hsz (b := b) rfl rfl (fun x hx => if_pos hx) hat⟩
        have hle := (lowest_le_highest' (.some hok hra) (.some hok' hra') x).1
        dsimp only
        split
        · rename_i hx
          rcases corner_le (.some hok hra) (.some hok' hra') hc hx with e | e <;> rw [e]
          · exact ⟨le_refl _, hle⟩
          · exact ⟨hle, le_refl _⟩
        · exact ⟨le_refl _, hle⟩
  unfold Reported
  generalize hme : params.method = m at *
  cases m
  · exact hlow (.inl rfl)
  · exact hworst (.inr rfl)
  · exact hworst (.inl rfl)
  · exact hhigh (.inr rfl)
  · exact hhigh (.inl rfl)

/-! ### Equations -/

theorem denote_costed (rt : Runtime) (d : Dimension) (t : SimpleTerm) : denote (rt.env d) (costed d t) = denote (rt.env d) t := by
  induction t with
  | value => rfl
  | scalar => rfl
  | var x =>
    rw [costed]
    split
    · rename_i h
      obtain ⟨rfl, rfl | rfl⟩ := h <;> rfl
    · rfl
  | add l r hl hr => rw [costed, denote, denote, hl, hr]
  | mul l r hl hr => rw [costed, denote, denote, hl, hr]

theorem not_null_var (x : Str) : ¬ Null (.var x) := fun h => by simpa [denote] using h fun _ => 1

/-- A number times anything that is not a product or a sum. -/
theorem printable_times {l r : SimpleTerm} (hl : ∃ n, l = .value n ∨ l = .scalar n) (hr : (∃ n, r = .scalar n) ∨ ∃ x, r = .var x) (top : Bool) :
    Printable top (.mul l r) := by
  have pl : ∀ t, Printable t l := by rcases hl with ⟨n, rfl | rfl⟩ <;> intro t <;> trivial
  have pr : ∀ t, Printable t r := by rcases hr with ⟨n, rfl⟩ | ⟨n, rfl⟩ <;> intro t <;> trivial
  have nl : ¬ isLit 0 l → ¬ Null l := by
    rcases hl with ⟨n, rfl | rfl⟩ <;> exact fun h hn => h (by simpa [denote, isLit] using hn fun _ => 0)
  have nr : ¬ isLit 0 r → ¬ Null r := by
    rcases hr with ⟨n, rfl⟩ | ⟨x, rfl⟩
    · exact fun h hn => h (by simpa [denote, isLit] using hn fun _ => 0)
    · exact fun _ => not_null_var x
  rw [Printable]
  by_cases h1 : isLit 1 l
  · exact .inl ⟨h1, pr _⟩
  by_cases h2 : isLit 1 r
  · exact .inr (.inl ⟨h1, h2, pl _⟩)
  by_cases h3 : isLit 0 l
  · exact .inr (.inr (.inl ⟨h1, h2, .inl h3⟩))
  by_cases h4 : isLit 0 r
  · exact .inr (.inr (.inl ⟨h1, h2, .inr h4⟩))
  exact .inr (.inr (.inr ⟨h1, h2, h3, h4, nl h3, nr h4, pl _, pr _⟩))

theorem costed_var (d : Dimension) (x : Str) : (∃ n, costed d (.var x) = .scalar n) ∨ ∃ y, costed d (.var x) = .var y := by
  rw [costed]
  split
  · exact .inl ⟨_, rfl⟩
  · exact .inr ⟨_, rfl⟩

theorem printable_per {n : Nat} (c x : Str) (hx : x = str% "READ" ∨ x = str% "WRITE") (hc : c ≠ str% "READ" ∧ c ≠ str% "WRITE") (hn : n ≠ 0) (d : Dimension)
    (top : Bool) : Printable top (costed d (project d (.mul (.mul (.value ⟨n, 0⟩) (.var c)) (.var x)))) := by
  have e : costed d (.var c) = .var c := by rw [costed, if_neg (by simp [hc.1, hc.2])]
  simp only [project, costed.eq_5, costed.eq_1, e]
  rw [Printable]
  cases d with
  | proof =>
    rw [costed, if_pos ⟨rfl, hx⟩]
    exact .inr (.inr (.inl ⟨id, (by show ¬ (0 : ℕ) = 1; decide), .inr rfl⟩))
  | time =>
    rw [costed, if_neg (by simp)]
    refine .inr (.inr (.inr ⟨id, id, id, id, fun h => ?_, not_null_var _, printable_times ⟨_, .inl rfl⟩ (.inr ⟨_, rfl⟩) _, trivial⟩))
    have := h fun _ => 1
    simp only [denote, Nat.mul_one] at this
    exact hn this

theorem printable_summand {style : Style} {s : Summand} (hc : ∀ c ∈ s.comps, c ≠ str% "READ" ∧ c ≠ str% "WRITE")
    (h0 : ∀ c, s ≠ .readsPer 0 c ∧ s ≠ .writesPer 0 c) (d : Dimension) (top : Bool) : Printable top (costed d (project d (summandT style s))) := by
  have hcount : ∀ k, ∃ n, costed d (project d (countT style k)) = .value n ∨ costed d (project d (countT style k)) = .scalar n := by
    intro k
    cases style
    · exact ⟨_, .inr rfl⟩
    · exact ⟨_, .inl rfl⟩
    · exact ⟨_, .inl rfl⟩
  have hweight : ∀ t p, ∃ n, costed d (project d (weightT style t p)) = .value n ∨ costed d (project d (weightT style t p)) = .scalar n := by
    intro t p
    cases style <;> exact ⟨_, .inl rfl⟩
  cases s with
  | slope t p c => exact printable_times (hweight t p) (costed_var d c) top
  | reads k => exact printable_times (hcount k) (costed_var d _) top
  | writes k => exact printable_times (hcount k) (costed_var d _) top
  | readsPer k c => exact printable_per c _ (.inl rfl) (hc c (by simp [Summand.comps])) (fun h => (h0 c).1 (by rw [h])) d top
  | writesPer k c => exact printable_per c _ (.inr rfl) (hc c (by simp [Summand.comps])) (fun h => (h0 c).2 (by rw [h])) d top

theorem summand_not_lit (style : Style) (s : Summand) (d : Dimension) (k : Nat) : ¬ isLit k (costed d (project d (summandT style s))) := by
  cases s <;> exact id

theorem printable_body {x : Located} (hok : x.fn.Ok x.style) (h0 : x.fn.Counts) (d : Dimension) : Printable true (costed d (project d (bodyT x.style x.fn))) := by
  have key : ∀ (l : List Summand) (t : ChromaticTerm), (∀ s ∈ l, Printable true (costed d (project d (summandT x.style s)))) →
      Printable true (costed d (project d t)) → Printable true (costed d (project d (l.foldl (fun t s => .add t (summandT x.style s)) t))) := by
    intro l
    induction l with
    | nil => exact fun t _ h => h
    | cons s l ih =>
      intro t hl ht
      refine ih _ (fun s' hs' => hl s' (List.mem_cons_of_mem _ hs')) ?_
      rw [project, costed, Printable]
      have hs := hl s List.mem_cons_self
      by_cases h : isLit 0 (costed d (project d t))
      · exact .inr (.inl ⟨h, summand_not_lit _ _ _ _, hs⟩)
      · exact .inr (.inr (.inr ⟨h, summand_not_lit _ _ _ _, ht, hs, fun h => nomatch h⟩))
  refine key _ _ (fun s hs => printable_summand (fun c hc => comps_ne hok (List.mem_flatMap.2 ⟨s, hs, hc⟩))
    (fun c => ⟨fun h => (h0 c).1 (h ▸ hs), fun h => (h0 c).2 (h ▸ hs)⟩) d true) ?_
  cases x.style <;> trivial

theorem equation_for {v : Option Located} {e : Option ChromaticExtrinsic} (hv : Version v e) (d : Dimension) :
    EquationFor d (v.map (·.fn)) (termOf d (e.map (inDim d))) := by
  cases hv with
  | none => trivial
  | some hok hra =>
    refine ⟨fun rt => ?_, fun h0 => ?_, fun v hv => ?_⟩
    · rw [denote_costed, cost_denote hra.1]
    · rename_i x e
      have ht : (inDim d e).term = project d (bodyT x.style x.fn) := by rw [← hra.2.2]; rfl
      show Printable true (costed d (inDim d e).term)
      rw [ht]
      exact printable_body hok h0 d
    · rename_i x e
      have ht : (inDim d e).term = project d (bodyT x.style x.fn) := by rw [← hra.2.2]; rfl
      have hv' : Occurs v (costed d (inDim d e).term) := hv
      by_cases h1 : v = str% "READ"
      · exact .inl h1
      by_cases h2 : v = str% "WRITE"
      · exact .inr (.inl h2)
      refine .inr (.inr ?_)
      have := occurs_of_costed hv'
      rw [ht, occurs_project, occurs_body x.style x.fn v h1 h2] at this
      exact this

theorem compared_terms {b : Build} {hash : HashOrder} {old new : Option SimpleExtrinsic} {params : CompareParams} {r : TermChange}
    (h : compareExtrinsics b hash old new params = .ok r) : r.old = termOf params.unit old ∧ r.new = termOf params.unit new := by
  obtain ⟨_, scopes, _, _, l1, l2, _, hall, _⟩ := compare_ok h
  obtain ⟨_, ov, nv, hxx⟩ := hall r (by simp)
  rw [hxx]
  exact ⟨rfl, rfl⟩

/-! ### Kinds -/

/-- The numbers of an environment, for names without underscores. -/
theorem erase_denote {d : Dimension} {rt : Runtime} (hu : ∀ a b : Str, a.filter (· ≠ '_') = b.filter (· ≠ '_') → rt.comp a = rt.comp b) {t : SimpleTerm}
    (h : ∀ x, Occurs x t → x ≠ str% "READ" → x ≠ str% "WRITE" → x.filter (· ≠ '_') ≠ str% "READ" ∧ x.filter (· ≠ '_') ≠ str% "WRITE") :
    denote (rt.env d) (eraseUnderscores (costed d t)) = denote (rt.env d) t := by
  induction t with
  | value => rfl
  | scalar => rfl
  | var x =>
    by_cases h1 : x = str% "READ"
    · subst h1; cases d <;> rfl
    by_cases h2 : x = str% "WRITE"
    · subst h2; cases d <;> rfl
    obtain ⟨k1, k2⟩ := h x .here h1 h2
    rw [costed, if_neg (by simp [h1, h2]), eraseUnderscores, denote, denote, env_comp _ _ h1 h2]
    have e : x.filter (· != '_') = x.filter (· ≠ '_') := by congr 1; funext c; exact Bool.eq_iff_iff.2 (by simp)
    rw [e, env_comp _ _ k1 k2]
    apply hu
    rw [List.filter_filter]
    simp
  | add l r hl hr =>
    rw [costed, eraseUnderscores, denote, denote, hl fun x hx => h x (.addL hx), hr fun x hx => h x (.addR hx)]
  | mul l r hl hr =>
    rw [costed, eraseUnderscores, denote, denote, hl fun x hx => h x (.mulL hx), hr fun x hx => h x (.mulR hx)]

theorem kind_of (ho : Version o a) (hn : Version n c) {b : Build} {hash : HashOrder} {params : CompareParams} {r : TermChange}
    (h : compareExtrinsics b hash (a.map (inDim params.unit)) (c.map (inDim params.unit)) params = .ok r) : KindOf o n params.unit r.change := by
  obtain ⟨h1, h2, h3, _⟩ := C27_kinds b hash _ _ params r h
  refine ⟨h1.trans ?_, h2.trans ?_, ?_⟩
  · cases ho <;> simp
  · cases hn <;> simp
  rintro x y rfl rfl
  cases ho with
  | @some _ e hok hra =>
  cases hn with
  | @some _ e' hok' hra' =>
  constructor
  · intro hk hne rt hu
    obtain ⟨u, v, e1, e2, hs⟩ := h3.1 hk
    cases e1
    cases e2
    have hne' : ∀ z, Param (some x.fn) (some y.fn) z ↔ Component ((some e).map (inDim params.unit)) ((some e').map (inDim params.unit)) z :=
      fun z => (component_param (.some hok hra) (.some hok' hra') params.unit z).symm
    rw [← cost_denote hra.1, ← cost_denote hra'.1, ← erase_denote hu, ← erase_denote (t := (inDim params.unit e').term) hu, hs]
    · exact fun z hz k1 k2 => hne z ((hne' z).2 ⟨⟨_, .inr rfl, hz⟩, k1, k2⟩)
    · exact fun z hz k1 k2 => hne z ((hne' z).2 ⟨⟨_, .inl rfl, hz⟩, k1, k2⟩)
  · intro k1 k2 k3 k4
    refine h3.2 ⟨_, _, rfl, rfl, ?_⟩
    have : e.term = e'.term := by rw [hra.2.2, hra'.2.2, bodyT, bodyT, k1, k2, k3, k4]
    show SameEquation _ (project _ e.term) (project _ e'.term)
    rw [this]
    rfl

/-! ### Warnings -/

theorem sub_cases {l r u : SimpleTerm} : Sub u (.add l r) ↔ u = .add l r ∨ Sub u l ∨ Sub u r := by
  constructor
  · intro h
    cases h with
    | refl => exact .inl rfl
    | addL h => exact .inr (.inl h)
    | addR h => exact .inr (.inr h)
  · rintro (rfl | h | h)
    · exact .refl
    · exact .addL h
    · exact .addR h

theorem factor_add {x : Str} {k : Nat} {l r : SimpleTerm} : Factor x k (.add l r) ↔ Factor x k l ∨ Factor x k r := by
  unfold Factor
  rw [sub_cases, sub_cases]
  simp only [reduceCtorEq, false_or]
  tauto

theorem factor_mul {x : Str} {k : Nat} {l r : SimpleTerm} :
    Factor x k (.mul l r) ↔ (l = .scalar k ∧ r = .var x) ∨ (l = .var x ∧ r = .scalar k) ∨ Factor x k l ∨ Factor x k r := by
  have hs : ∀ u : SimpleTerm, Sub u (.mul l r) ↔ u = .mul l r ∨ Sub u l ∨ Sub u r := by
    intro u
    constructor
    · intro h
      cases h with
      | refl => exact .inl rfl
      | mulL h => exact .inr (.inl h)
      | mulR h => exact .inr (.inr h)
    · rintro (rfl | h | h)
      · exact .refl
      · exact .mulL h
      · exact .mulR h
  unfold Factor
  rw [hs, hs]
  simp only [Term.mul.injEq, eq_comm (a := Term.scalar k), eq_comm (a := Term.var x)]
  tauto

theorem factor_value {x : Str} {k m : Nat} : ¬ Factor x k (.value m : SimpleTerm) := by
  rintro (h | h) <;> cases h

theorem factor_scalar {x : Str} {k m : Nat} : ¬ Factor x k (.scalar m : SimpleTerm) := by
  rintro (h | h) <;> cases h

theorem factor_var {x y : Str} {k : Nat} : ¬ Factor x k (.var y : SimpleTerm) := by
  rintro (h | h) <;> cases h

theorem factor_summand (style : Style) (s : Summand) (d : Dimension) (x : Str) (k : Nat) :
    Factor x k (project d (summandT style s)) ↔
      style = .parts ∧ ((x = str% "READ" ∧ s = .reads k) ∨ (x = str% "WRITE" ∧ s = .writes k)) := by
  have hval : ∀ w : Weight, project d (.value w) = .value (match d with | .time => w.time | .proof => w.proof) := fun w => by cases d <;> rfl
  have hw : ∀ a b, ∃ m, project d (weightT style a b) = .value m := fun a b => by cases style <;> exact ⟨_, hval _⟩
  have hvar : ∀ y, project d (.var y) = .var y := fun y => by cases d <;> rfl
  have hsc : ∀ y, project d (.scalar y) = .scalar y := fun y => by cases d <;> rfl
  have hmul : ∀ l r, project d (.mul l r) = .mul (project d l) (project d r) := fun l r => by cases d <;> rfl
  cases s with
  | slope a b c =>
    obtain ⟨m, hm⟩ := hw a b
    rw [summandT, hmul, hm, hvar, factor_mul]
    simp [factor_value, factor_var]
  | reads m =>
    cases style <;> rw [summandT, hmul, countT, hvar, factor_mul] <;> simp [hval, hsc, factor_value, factor_var, factor_scalar]
    tauto
  | writes m =>
    cases style <;> rw [summandT, hmul, countT, hvar, factor_mul] <;> simp [hval, hsc, factor_value, factor_var, factor_scalar]
    tauto
  | readsPer m c => rw [summandT, hmul, hmul, hvar, hvar, hval, factor_mul, factor_mul]; simp [factor_value, factor_var]
  | writesPer m c => rw [summandT, hmul, hmul, hvar, hvar, hval, factor_mul, factor_mul]; simp [factor_value, factor_var]

theorem factor_body (style : Style) (f : GenFn) (d : Dimension) (x : Str) (k : Nat) :
    Factor x k (project d (bodyT style f)) ↔
      style = .parts ∧ ((x = str% "READ" ∧ .reads k ∈ f.summands) ∨ (x = str% "WRITE" ∧ .writes k ∈ f.summands)) := by
  have hadd : ∀ l r, project d (.add l r) = .add (project d l) (project d r) := fun l r => by cases d <;> rfl
  have key : ∀ (l : List Summand) (t : ChromaticTerm), Factor x k (project d (l.foldl (fun t s => .add t (summandT style s)) t)) ↔
      Factor x k (project d t) ∨ style = .parts ∧ ((x = str% "READ" ∧ .reads k ∈ l) ∨ (x = str% "WRITE" ∧ .writes k ∈ l)) := by
    intro l
    induction l with
    | nil => simp
    | cons s l ih =>
      intro t
      rw [List.foldl_cons, ih, hadd, factor_add, factor_summand]
      simp only [List.mem_cons, eq_comm (a := s)]
      tauto
  rw [bodyT, key, or_iff_right]
  have : ∃ m, project d (weightT style f.time f.proof) = .value m := by
    cases style <;> cases d <;> exact ⟨_, rfl⟩
  obtain ⟨m, hm⟩ := this
  rw [hm]
  exact factor_value

theorem flagged_iff (ho : Version o a) (hn : Version n c) (d : Dimension) :
    Flagged (a.map (inDim d)) (c.map (inDim d)) ↔ ∃ x ∈ n.or o, x.Excessive := by
  have key : ∀ {y : Located} {e : ChromaticExtrinsic}, ReadAs' y.style y.file y.fn e →
      ((∃ k, 1000 < k ∧ (Factor (str% "READ") k (inDim d e).term ∨ Factor (str% "WRITE") k (inDim d e).term)) ↔ y.Excessive) := by
    intro y e hra
    have ht : (inDim d e).term = project d (bodyT y.style y.fn) := by rw [← hra.2.2]; rfl
    simp only [ht, factor_body, Located.Excessive, Located.Reads, Located.Writes]
    simp
  unfold Flagged
  cases hn with
  | some hok hra =>
    simp [← key hra]
  | none =>
    cases ho with
    | none => simp
    | some hok hra => simp [← key hra]

end

section

variable {o n : Option Located} {a c : Option ChromaticExtrinsic}

/-! ### Entries -/

/-- The outcome of comparing two versions. -/
theorem compared (ho : Version o a) (hn : Version n c) (hne : o ≠ none ∨ n ≠ none) (b : Build) (hash : HashOrder) (params : CompareParams) :
    (Incomparable params.method (o.map (·.fn)) (n.map (·.fn)) →
      ∃ m, compareExtrinsics b hash (a.map (inDim params.unit)) (c.map (inDim params.unit)) params = .err m) ∧
    (¬ Incomparable params.method (o.map (·.fn)) (n.map (·.fn)) → Sized params.method (o.map (·.fn)) (n.map (·.fn)) params.unit →
      ∃ r, compareExtrinsics b hash (a.map (inDim params.unit)) (c.map (inDim params.unit)) params = .ok r) := by
  have hne' : a.map (inDim params.unit) ≠ none ∨ c.map (inDim params.unit) ≠ none := by
    cases ho <;> cases hn <;> simp_all
  rw [← refused_incomparable ho hn params.unit]
  refine ⟨(compareExtrinsics_spec b hash _ _ params hne').1, fun hr hsz => compare_exists hne' hr fun s hs e he => ?_⟩
  have hside : ∃ y e', Side o n a c y e' ∧ e = inDim params.unit e' := by
    rcases he with he | he
    · cases ho with
      | none => cases he
      | some _ _ => exact ⟨_, _, .inl ⟨rfl, rfl⟩, (Option.some.inj he).symm⟩
    · cases hn with
      | none => cases he
      | some _ _ => exact ⟨_, _, .inr ⟨rfl, rfl⟩, (Option.some.inj he).symm⟩
  obtain ⟨y, e', hy, rfl⟩ := hside
  exact ⟨_, corner_cost ho hn hs hsz b (rt := point (assignment s)) rfl rfl (fun _ _ => rfl) hy⟩

theorem entered (ho : Version o a) (hn : Version n c) (hne : o ≠ none ∨ n ≠ none) {b : Build} {hash : HashOrder} {params : CompareParams} {p e : Str}
    (hsz : Sized params.method (o.map (·.fn)) (n.map (·.fn)) params.unit) {x : TermDiff}
    (h : EntryFor b hash params (a.map (inDim params.unit)) (c.map (inDim params.unit)) x)
    (hf : ∀ msg, x = .failed msg → Refused params.method (a.map (inDim params.unit)) (c.map (inDim params.unit)) →
      Reason params.method p e (Component (a.map (inDim params.unit)) (c.map (inDim params.unit)))
        (Annotated (a.map (inDim params.unit)) (c.map (inDim params.unit))) msg)
    (hw : ∀ r msg, x = .warning r msg → ∃ x, (c = some x ∨ (c = none ∧ a = some x)) ∧
      Warns p e (fun k => Factor (str% "READ") k (inDim params.unit x).term) (fun k => Factor (str% "WRITE") k (inDim params.unit x).term) msg) :
    Entered params.method params.unit p e o n x := by
  obtain ⟨h1, h2⟩ := compared ho hn hne b hash params
  rcases h with ⟨m, hm, rfl⟩ | ⟨r, hr, h⟩
  · have hre : Incomparable params.method (o.map (·.fn)) (n.map (·.fn)) := by
      by_contra hcon
      obtain ⟨r, hr⟩ := h2 hcon hsz
      rw [hr] at hm
      cases hm
    refine .inl ⟨hre, m, rfl, ?_⟩
    have := hf m rfl ((refused_incomparable ho hn _ _).2 hre)
    rwa [show Component (a.map (inDim params.unit)) (c.map (inDim params.unit)) = Param (o.map (·.fn)) (n.map (·.fn)) from
        funext fun x => propext (component_param ho hn _ x),
      show Annotated (a.map (inDim params.unit)) (c.map (inDim params.unit)) = fun x r => r ∈ ranges (o.map (·.fn)) (n.map (·.fn)) x from
        funext fun x => funext fun r => propext (annotated_ranges ho hn _ x r)] at this
  · refine .inr ⟨fun hcon => ?_, r, reported ho hn hsz hr, kind_of ho hn hr, (compared_terms hr).1 ▸ equation_for ho _,
      (compared_terms hr).2 ▸ equation_for hn _, ?_⟩
    · obtain ⟨m, hm⟩ := h1 hcon
      rw [hr] at hm
      cases hm
    · rw [flagged_iff ho hn] at h
      rcases h with ⟨h, rfl⟩ | ⟨⟨y, hy, hyx⟩, msg, rfl⟩
      · exact .inl ⟨fun x hx hex => h ⟨x, hx, hex⟩, rfl⟩
      · refine .inr ⟨y, hy, hyx, msg, rfl, ?_⟩
        obtain ⟨z, hz, hwz⟩ := hw r msg rfl
        have hra : ReadAs' y.style y.file y.fn z := by
          cases hn with
          | some hok hra =>
            cases hy
            rcases hz with hz | ⟨hz, _⟩
            · cases hz; exact hra
            · cases hz
          | none =>
            cases ho with
            | none => cases hy
            | some hok hra =>
              cases hy
              rcases hz with hz | ⟨_, hz⟩
              · cases hz
              · cases hz; exact hra
        have ht : (inDim params.unit z).term = project params.unit (bodyT y.style y.fn) := by rw [← hra.2.2]; rfl
        have hR : (fun k => Factor (str% "READ") k (inDim params.unit z).term) = y.Reads := by
          funext k
          rw [ht, factor_body]
          simp [Located.Reads]
        have hW : (fun k => Factor (str% "WRITE") k (inDim params.unit z).term) = y.Writes := by
          funext k
          rw [ht, factor_body]
          simp [Located.Writes]
        rwa [hR, hW] at hwz

end

/-! ### Files -/

/-- What is read from a function of a file. -/
def Read (l : Located) (x : ChromaticExtrinsic) : Prop := l.fn.Ok l.style ∧ ReadAs' l.style l.file l.fn x

theorem read_named {l : Located} {x : ChromaticExtrinsic} (h : Read l x) (p e : Str) : Named p e x ↔ l.file = p ∧ l.fn.name = e := by
  obtain ⟨_, ⟨h1, h2, _⟩, _⟩ := h
  unfold Named
  rw [h1, h2]

theorem functions_parsed {W : World} {cc : CharClass} {s : W.State} {repo : Path} {lenient : Bool} {files : List Path} {l : List Located}
    (h : FunctionsOf (W.fs s) repo lenient files l) : ∃ exts, ParsedAs W ⟨rustSyn, cc⟩ repo lenient s files exts ∧ List.Forall₂ Read l exts := by
  induction h with
  | nil => exact ⟨[], ⟨[], .nil, rfl⟩, .nil⟩
  | @file path content name style fns files l hc hg hne hok hn _ ih =>
    obtain ⟨exts, h1, h2⟩ := ih
    obtain ⟨es, h3, h4⟩ := file_read cc name hg hne hok
    have hp : parseFileInRepo ⟨rustSyn, cc⟩ (W.fs s) repo path = .ok es := by
      rw [parseFileInRepo, readFile, hc, Res.bind_ok, hn, Res.bind_ok, h3]
      rfl
    refine ⟨es ++ exts, ?_, ?_⟩
    · obtain ⟨parts, h1, rfl⟩ := h1
      exact ⟨es :: parts, .cons (.inl ((parseFileInRepo_ok _ _ _ _ _).1 hp)) h1, rfl⟩
    · refine List.rel_append ?_ h2
      rw [List.forall₂_map_left_iff]
      exact List.forall₂_iff_get.2 ⟨h4.length_eq, fun i hi hi' => ⟨hok _ (List.get_mem _ _), (List.forall₂_iff_get.1 h4).2 i hi hi'⟩⟩
  | @other path content name items files l hlen hc hi hno hn _ ih =>
    obtain ⟨exts, h1, h2⟩ := ih
    obtain ⟨m, hm⟩ := no_pallet cc (rustSyn_fileText hi) hno (W.fs s) repo path hc
    refine ⟨exts, ?_, h2⟩
    obtain ⟨parts, h1, rfl⟩ := h1
    exact ⟨[] :: parts, .cons (.inr ⟨hlen, rfl, (parseFileInRepo_refused _ _ _ _).1 ⟨m, hm⟩⟩) h1, rfl⟩

theorem first_version {l : List Located} {exts : List ChromaticExtrinsic} (h : List.Forall₂ Read l exts) (p e : Str) :
    ∃ x, FirstOf exts p e x ∧ Version (first l p e) x := by
  induction h with
  | nil => exact ⟨none, by simp [FirstOf], .none⟩
  | @cons y x l exts hr _ ih =>
    by_cases hy : y.file = p ∧ y.fn.name = e
    · refine ⟨some x, ⟨(read_named hr p e).2 hy, [], exts, rfl, by simp⟩, ?_⟩
      rw [first, List.find?_cons_of_pos (by simpa using hy)]
      exact .some hr.1 hr.2
    · obtain ⟨z, hz, hv⟩ := ih
      have hx : ¬ Named p e x := fun h => hy ((read_named hr p e).1 h)
      refine ⟨z, ?_, ?_⟩
      · cases z with
        | none => exact fun w hw => (List.mem_cons.1 hw).elim (fun h => h ▸ hx) (hz w)
        | some z =>
          obtain ⟨k1, l1, l2, rfl, k2⟩ := hz
          exact ⟨k1, x :: l1, l2, rfl, fun w hw => (List.mem_cons.1 hw).elim (fun h => h ▸ hx) (k2 w)⟩
      · rw [first, List.find?_cons_of_neg (by simpa using hy)]
        exact hv

theorem present_iff {olds news : List Located} {os ns : List ChromaticExtrinsic} (h1 : List.Forall₂ Read olds os) (h2 : List.Forall₂ Read news ns)
    (p e : Str) : Present os ns p e ↔ ∃ x, (x ∈ olds ∨ x ∈ news) ∧ x.file = p ∧ x.fn.name = e := by
  constructor
  · rintro ⟨x, hx | hx, hn⟩
    · obtain ⟨y, hy, hr⟩ := forall₂_mem_right h1 hx
      exact ⟨y, .inl hy, (read_named hr p e).1 hn⟩
    · obtain ⟨y, hy, hr⟩ := forall₂_mem_right h2 hx
      exact ⟨y, .inr hy, (read_named hr p e).1 hn⟩
  · rintro ⟨y, hy | hy, hn⟩
    · obtain ⟨x, hx, hr⟩ := forall₂_mem_right h1.flip hy
      exact ⟨x, .inl hx, (read_named hr p e).2 hn⟩
    · obtain ⟨x, hx, hr⟩ := forall₂_mem_right h2.flip hy
      exact ⟨x, .inr hx, (read_named hr p e).2 hn⟩

theorem first_ne_none {l : List Located} {p e : Str} : first l p e ≠ none ↔ ∃ x ∈ l, x.file = p ∧ x.fn.name = e := by
  unfold first
  rw [Ne, List.find?_eq_none]
  simp

/-- A report on what is read from these functions is complete. -/
theorem complete_of {b : Build} {hash : HashOrder} {rx : RegexEngine} {olds news : List Located} {os ns : List ChromaticExtrinsic}
    {params : CompareParams} {filter : FilterParams} {diff : List ExtrinsicDiff} (h1 : List.Forall₂ Read olds os) (h2 : List.Forall₂ Read news ns)
    (hsz : AllSized params.method params.unit olds news) (h : compareFiles b hash rx os ns params filter = .ok diff) :
    CompleteReport rx filter params.method params.unit olds news diff := by
  obtain ⟨k1, k2⟩ := C32_exactly_once b hash rx os ns params filter diff h
  refine ⟨k1, fun p e => by rw [k2, present_iff h1 h2], fun x hx => ?_⟩
  obtain ⟨o, n, ho, hn, he⟩ := C33_right_pair b hash rx os ns params filter diff h x hx
  obtain ⟨o', ho', vo⟩ := first_version h1 x.file x.name
  obtain ⟨n', hn', vn⟩ := first_version h2 x.file x.name
  cases firstOf_unique ho ho'
  cases firstOf_unique hn hn'
  obtain ⟨m1, m2⟩ := C88_report b hash rx os ns params filter diff h x hx _ _ ho hn
  refine entered vo vn ?_ (hsz _ _) he m1 m2
  rw [first_ne_none, first_ne_none]
  obtain ⟨⟨y, hy | hy, hyn⟩, _⟩ := (k2 x.file x.name).1 ⟨x, hx, rfl, rfl⟩
  · obtain ⟨z, hz, hr⟩ := forall₂_mem_right h1 hy
    exact .inl ⟨z, hz, (read_named hr _ _).1 hyn⟩
  · obtain ⟨z, hz, hr⟩ := forall₂_mem_right h2 hy
    exact .inr ⟨z, hz, (read_named hr _ _).1 hyn⟩

/-- There is a report, if the filters are regular expressions. -/
theorem report_exists {b : Build} {hash : HashOrder} {rx : RegexEngine} {olds news : List Located} {os ns : List ChromaticExtrinsic}
    {params : CompareParams} {filter : FilterParams} (h1 : List.Forall₂ Read olds os) (h2 : List.Forall₂ Read news ns)
    (hsz : AllSized params.method params.unit olds news)
    (hrx : ∀ q, filter.pallet = some q ∨ filter.extrinsic = some q → rx.compile q ≠ none) :
    ∃ diff, compareFiles b hash rx os ns params filter = .ok diff := by
  have hcomp : ∀ o : Option Str, (∀ q, o = some q → rx.compile q ≠ none) → ∃ r, rx.compileOpt o = .ok r := by
    intro o ho
    cases o with
    | none => exact ⟨_, rfl⟩
    | some q =>
      simp only [RegexEngine.compileOpt]
      cases hc : rx.compile q with
      | none => exact absurd hc (ho q rfl)
      | some m => exact ⟨_, rfl⟩
  obtain ⟨er, he⟩ := hcomp filter.extrinsic fun q hq => hrx q (.inr hq)
  obtain ⟨pr, hp⟩ := hcomp filter.pallet fun q hq => hrx q (.inl hq)
  rw [compareFiles_eq, he, hp]
  simp only [Res.bind_ok]
  apply mapM_ok_of_forall
  rintro ⟨p, e⟩ hpe
  have hpres := mem_namesOf.1 (List.mem_filter.1 hpe).1
  rw [present_iff h1 h2] at hpres
  obtain ⟨o, ho, vo⟩ := first_version h1 p e
  obtain ⟨n, hn, vn⟩ := first_version h2 p e
  obtain ⟨e1, e2⟩ := entry_eq (params := params) ho hn
  have hne : first olds p e ≠ none ∨ first news p e ≠ none := by
    rw [first_ne_none, first_ne_none]
    obtain ⟨x, hx | hx, hx'⟩ := hpres
    · exact .inl ⟨x, hx, hx'⟩
    · exact .inr ⟨x, hx, hx'⟩
  obtain ⟨k1, k2⟩ := compared vo vn hne b hash params
  have hd : ∃ c, diffOne b hash (os.map (inDim params.unit)) (ns.map (inDim params.unit)) params p e = .ok c := by
    unfold diffOne
    simp only [e1, e2]
    by_cases hr : Incomparable params.method ((first olds p e).map (·.fn)) ((first news p e).map (·.fn))
    · obtain ⟨m, hm⟩ := k1 hr
      rw [hm]
      exact ⟨_, rfl⟩
    · obtain ⟨c, hc⟩ := k2 hr (hsz p e)
      rw [hc]
      cases hx : (n.map (inDim params.unit)).or (o.map (inDim params.unit)) with
      | none =>
        rw [Option.or_eq_none_iff] at hx
        have hnn := compareExtrinsics_not_none hc
        rcases hnn with h | h
        · exact absurd hx.2 h
        · exact absurd hx.1 h
      | some x =>
        dsimp only
        cases hs : sanityCheckTerm x.term with
        | ok => exact ⟨_, rfl⟩
        | err m => exact ⟨_, rfl⟩
        | panic => rw [(C15_flags_iff x.term).2 (by rw [hs]; simp)] at hs; cases hs
        | diverge => rw [(C15_flags_iff x.term).2 (by rw [hs]; simp)] at hs; cases hs
  obtain ⟨c, hc⟩ := hd
  exact ⟨_, by rw [entry, hc]; rfl⟩

end Gen

/-- C87: the report on two revisions.  Both can be checked out and their files listed, and all files are generated weight files (or, if errors are
ignored, files without any `impl` block).  Then there is a report and it is complete: one entry for each function in the files that passes the filters, with
the first version of that name in each revision, the right numbers for the method, and an error or a warning exactly where there should be one.
Costs must fit into the numbers of the tool. -/
theorem C87_commits {W : World} (b : Build) (hash : HashOrder) (rx : RegexEngine) (cc : CharClass) (repo : Path) (old new : Str)
    (params : CompareParams) (filter : FilterParams) (pattern : Str) (maxFiles : Nat) (s : Run W) (hdot : ¬ DotDot pattern)
    {G1 G2 : List Event} {s1 s2 : W.State} {files1 files2 : List Path} {olds news : List Located}
    (c1 : CheckedOut W old params.shouldPull params.gitForce s.state G1 s1) (l1 : Listed W s1 repo pattern maxFiles files1)
    (f1 : FunctionsOf (W.fs s1) repo params.ignoreErrors files1 olds)
    (c2 : CheckedOut W new params.shouldPull params.gitForce s1 G2 s2) (l2 : Listed W s2 repo pattern maxFiles files2)
    (f2 : FunctionsOf (W.fs s2) repo params.ignoreErrors files2 news)
    (hrx : ∀ q, filter.pallet = some q ∨ filter.extrinsic = some q → rx.compile q ≠ none)
    (hsz : AllSized params.method params.unit olds news) :
    ∃ diff s', compareCommits b hash rx ⟨rustSyn, cc⟩ repo old new params filter pattern maxFiles s = (.ok diff, s') ∧ s'.state = s2 ∧
      CompleteReport rx filter params.method params.unit olds news diff := by
  obtain ⟨os, p1, r1⟩ := Gen.functions_parsed (cc := cc) f1
  obtain ⟨ns, p2, r2⟩ := Gen.functions_parsed (cc := cc) f2
  obtain ⟨diff, hd⟩ := Gen.report_exists (b := b) (hash := hash) (rx := rx) (filter := filter) r1 r2 hsz hrx
  obtain ⟨ps, ms, hps, _⟩ := id l1
  refine ⟨diff, ⟨s2, s.log ++ G1 ++ globs repo ps ++ [.parse files1] ++ G2 ++ globs repo ps ++ [.parse files2]⟩, ?_, rfl, Gen.complete_of r1 r2 hsz hd⟩
  exact (C41_compare_commits b hash rx _ repo old new params filter pattern maxFiles s _ diff).2
    ⟨hdot, ps, G1, s1, files1, os, G2, s2, files2, ns, hps, c1, l1, p1, c2, l2, p2, hd, rfl, rfl⟩

/-! ### A concrete report -/

/-- The functions of the example. -/
def exLocated (slope : Nat) : List Located :=
  (exGenFns slope).map (⟨str% "a.rs", .parts, ·⟩) ++ ((exGenFns slope).map (⟨str% "w.rs", .parts, ·⟩) ++ [])

/-- The files of the example. -/
def exGenFiles : List Path := [[.normal (str% "r"), .normal (str% "a.rs")], [.normal (str% "r"), .normal (str% "w.rs")]]

theorem exGen_functions (lenient : Bool) :
    FunctionsOf (exGenWorld.fs (str% "v1")) [.normal (str% "r")] lenient exGenFiles (exLocated 7000000) ∧
    FunctionsOf (exGenWorld.fs (str% "v2")) [.normal (str% "r")] lenient exGenFiles (exLocated 9000000) :=
  ⟨.file rfl exGen_7 (by decide) (exGen_ok (by decide)) (by decide) (.file rfl exGen_7 (by decide) (exGen_ok (by decide)) (by decide) .nil),
    .file rfl exGen_9 (by decide) (exGen_ok (by decide)) (by decide) (.file rfl exGen_9 (by decide) (exGen_ok (by decide)) (by decide) .nil)⟩

theorem exGen_listed (s : Str) : Listed exGenWorld s [.normal (str% "r")] (str% "*") 2 exGenFiles :=
  ((C38_listed (W := exGenWorld) [.normal (str% "r")] (str% "*") 2 ⟨s, []⟩ _ exGenFiles).1 rfl).1

theorem exGen_checked (s : Str) : CheckedOut exGenWorld (str% "v1") false false s [.git [str% "checkout", str% "v1"] (.exited true [] [] true)] (str% "v1") ∧
    CheckedOut exGenWorld (str% "v2") false false s [.git [str% "checkout", str% "v2"] (.exited true [] [] true)] (str% "v2") :=
  ⟨⟨[], _, _, .inr ⟨rfl, rfl, rfl⟩, rfl, .inl ⟨rfl, _, rfl, ⟨[], [], true, rfl⟩, rfl⟩⟩,
    ⟨[], _, _, .inr ⟨rfl, rfl, rfl⟩, rfl, .inl ⟨rfl, _, rfl, ⟨[], [], true, rfl⟩, rfl⟩⟩⟩

/-- A test for `AllSized`. -/
theorem allSized_of {m : CompareMethod} {d : Dimension} {olds news : List Located}
    (h : ∀ o ∈ none :: olds.map some, ∀ n ∈ none :: news.map some, ∀ x ∈ o.toList ++ n.toList,
      x.fn.cost (point (highest (o.map (·.fn)) (n.map (·.fn)))) d < 2 ^ 53) : AllSized m d olds news := by
  have key : ∀ (l : List Located) (p e : Str), first l p e ∈ none :: l.map some := by
    intro l p e
    cases hf : first l p e with
    | none => simp
    | some x => exact List.mem_cons_of_mem _ (List.mem_map_of_mem (List.mem_of_find?_eq_some hf))
  intro p e f hf
  have hx : ∃ x ∈ (first olds p e).toList ++ (first news p e).toList, x.fn = f := by
    rcases hf with hf | hf <;> obtain ⟨x, hx, rfl⟩ := Option.map_eq_some_iff.1 hf <;> exact ⟨x, by simp [hx], rfl⟩
  obtain ⟨x, hx, rfl⟩ := hx
  refine Nat.lt_of_lt_of_le (h _ (key olds p e) _ (key news p e) x hx) ?_
  cases m <;> simp [costLimit]

theorem exGen_sized (m : CompareMethod) (d : Dimension) : AllSized m d (exLocated 7000000) (exLocated 9000000) :=
  allSized_of (by cases d <;> decide +kernel)

/-- Seventeen components, and a method that does not guess with one component with two ranges and one without any. -/
example : Incomparable .base (some ⟨str% "f", [], 0, 0, (List.range 17).map fun i => .slope 1 0 (str% "c" ++ natToStr i)⟩) none := by
  refine .inl ⟨(List.range 17).map fun i => str% "c" ++ natToStr i, by decide, by decide, fun x hx => ⟨_, .inl rfl, ?_⟩⟩
  obtain ⟨i, hi, rfl⟩ := List.mem_map.1 hx
  exact List.mem_flatMap.2 ⟨.slope 1 0 (str% "c" ++ natToStr i), List.mem_map.2 ⟨i, hi, rfl⟩, by simp [Summand.comps]⟩
example : Incomparable .exactWorst (some ⟨str% "f", [.range (str% "n") 1 10], 0, 0, [.slope 1 0 (str% "n")]⟩)
    (some ⟨str% "f", [.range (str% "n") 1 20], 0, 0, [.slope 1 0 (str% "n")]⟩) := by
  refine .inr ⟨.inl rfl, str% "n", ⟨_, .inl rfl, by decide⟩, ?_⟩
  rintro ⟨r, _, h⟩
  have h1 := h ⟨1, 10⟩ (by decide)
  have h2 := h ⟨1, 20⟩ (by decide)
  rw [← h1] at h2
  cases h2
example : ¬ Incomparable .exactWorst (some ((exGenFns 7000000)[0])) (some ((exGenFns 9000000)[0])) := by
  rintro (⟨l, hl, h16, hp⟩ | ⟨_, c, ⟨f, hf, hc⟩, h⟩)
  · have : ∀ x ∈ l, x = str% "n" := by
      intro x hx
      obtain ⟨f, hf | hf, hc⟩ := hp x hx <;> cases hf <;> simpa [exGenFns, GenFn.comps, Summand.comps] using hc
    rcases l with _ | ⟨x, _ | ⟨y, l⟩⟩
    · simp at h16
    · simp at h16
    · have h1 := this x (by simp)
      have h2 := this y (by simp)
      simp [h1, h2] at hl
  · have : c = str% "n" := by
      rcases hf with hf | hf <;> cases hf <;> simpa [exGenFns, GenFn.comps, Summand.comps] using hc
    subst this
    exact h ⟨⟨1, 1000⟩, by decide, by decide⟩
/-- Too many reads, and the numbers of a warning about them. -/
example : (⟨str% "a.rs", .parts, ⟨str% "f", [], 0, 0, [.reads 3, .reads 2000, .writes 1500]⟩⟩ : Located).Excessive ∧
    Warns (str% "a.rs") (str% "f") (⟨str% "a.rs", .parts, ⟨str% "f", [], 0, 0, [.reads 3, .reads 2000, .writes 1500]⟩⟩ : Located).Reads
      (⟨str% "a.rs", .parts, ⟨str% "f", [], 0, 0, [.reads 3, .reads 2000, .writes 1500]⟩⟩ : Located).Writes (str% "Call has 2000 READs: a.rs::f") := by
  refine ⟨⟨2000, by decide, .inl ⟨rfl, by simp⟩⟩, 2000, ?_, .inr ⟨⟨rfl, by simp⟩, by simp [Located.Writes], by decide⟩⟩
  rintro k (⟨_, h⟩ | ⟨_, h⟩) <;> simp at h <;> omega

/-- All hypotheses of `C87_commits` are met, for every method and unit. -/
example (m : CompareMethod) (d : Dimension) : ∃ diff s',
    compareCommits (W := exGenWorld) .release idOrder exRegex ⟨rustSyn, asciiClass⟩ [.normal (str% "r")] (str% "v1") (str% "v2")
      ⟨m, d, false, false, false, false⟩ exFilter (str% "*") 2 ⟨str% "start", []⟩ = (.ok diff, s') ∧ s'.state = str% "v2" ∧
    CompleteReport exRegex exFilter m d (exLocated 7000000) (exLocated 9000000) diff :=
  C87_commits (W := exGenWorld) .release idOrder exRegex asciiClass [.normal (str% "r")] (str% "v1") (str% "v2") ⟨m, d, false, false, false, false⟩ exFilter
    (str% "*") 2 ⟨str% "start", []⟩ (by rw [← hasDotDot_iff]; decide) (exGen_checked _).1 (exGen_listed _) (exGen_functions _).1
    (exGen_checked _).2 (exGen_listed _) (exGen_functions _).2 (by rintro q (h | h) <;> cases h) (exGen_sized m d)

end Swc
