/-
C105: the names of parameters.  Other names in both versions change nothing; other names in one version only make the worst-case methods compare
the old version at its best with the new version at its worst.
-/
import Mathlib.Logic.Equiv.Basic
import Verif.Props.Readme

namespace Swc

namespace Spec

/-- The equation with other names for its variables. -/
def renameTerm (σ : Str → Str) : SimpleTerm → SimpleTerm
  | .value n => .value n
  | .scalar n => .scalar n
  | .var x => .var (σ x)
  | .add l r => .add (renameTerm σ l) (renameTerm σ r)
  | .mul l r => .mul (renameTerm σ l) (renameTerm σ r)

/-- `e'` is `e` with other names for its parameters, in the equation and in the annotations. -/
def RenamedCall (σ : Str → Str) (e e' : SimpleExtrinsic) : Prop :=
  e'.term = renameTerm σ e.term ∧ ∀ x, annotation e' (σ x) = annotation e x

/-- New names for parameters, one for each; storage accesses keep theirs. -/
def KeepsStorage (σ : Str → Str) : Prop := σ (str% "READ") = str% "READ" ∧ σ (str% "WRITE") = str% "WRITE"

end Spec

open Spec Std Term

/-- A point with any choice of instances exists. -/
theorem corner_at (d : Dimension) (m : CompareMethod) (old new : Option SimpleExtrinsic) (g : Str → Nat)
    (hg : ∀ x, Component old new x → IsLow m old new x (g x) ∨ IsHigh m old new x (g x)) :
    ∃ s, Corner d m old new s ∧ ∀ x, Component old new x → binding s x = some (.scalar (g x)) := by
  obtain ⟨s, hc, _⟩ := corner_exists (baseScope d) (sorted_baseScope _)
    (freesOf idOrder (old.map (dropStorage d)) (new.map (dropStorage d)) (baseScope d)) nodup_freesOf g g
  simp only [mem_freesOf, freeIn_base] at hc
  have hb : ∀ x, Component old new x → binding s x = some (.scalar (g x)) := fun x hx => ((hc.2 x).1 hx).elim id id
  have hr : binding s (str% "READ") = some (.scalar (readCost d)) := by
    rw [(hc.2 _).2 (fun h => h.2.1 rfl), binding_baseScope, if_neg (by decide), if_pos rfl]
  have hw : binding s (str% "WRITE") = some (.scalar (writeCost d)) := by
    rw [(hc.2 _).2 (fun h => h.2.2 rfl), binding_baseScope, if_pos rfl]
  refine ⟨s, ⟨hc.1, hr, hw, fun x hx => ⟨g x, hb x hx, hg x hx⟩, fun x u hu => ?_⟩, hb⟩
  by_cases hx : Component old new x
  · exact .inr (.inr hx)
  · rw [(hc.2 x).2 hx, binding_baseScope] at hu
    by_cases h1 : x = str% "READ"
    · exact .inl h1
    · by_cases h2 : x = str% "WRITE"
      · exact .inr (.inl h2)
      · rw [if_neg h2, if_neg h1] at hu; cases hu

theorem renameTerm_comp (σ τ : Str → Str) (t : SimpleTerm) : renameTerm τ (renameTerm σ t) = renameTerm (τ ∘ σ) t := by
  induction t with
  | value => rfl
  | scalar => rfl
  | var => rfl
  | add l r hl hr => simp only [renameTerm, hl, hr]
  | mul l r hl hr => simp only [renameTerm, hl, hr]

theorem renameTerm_id (t : SimpleTerm) : renameTerm id t = t := by
  induction t with
  | value => rfl
  | scalar => rfl
  | var => rfl
  | add l r hl hr => simp only [renameTerm, hl, hr]
  | mul l r hl hr => simp only [renameTerm, hl, hr]

theorem renamed_symm {σ : Equiv.Perm Str} {e e' : SimpleExtrinsic} (h : RenamedCall σ e e') : RenamedCall σ.symm e' e := by
  refine ⟨?_, fun x => ?_⟩
  · rw [h.1, renameTerm_comp]
    have : (⇑σ.symm ∘ ⇑σ) = id := by funext x; simp
    rw [this, renameTerm_id]
  · have := h.2 (σ.symm x)
    rw [Equiv.apply_symm_apply] at this
    exact this.symm

theorem keeps_symm {σ : Equiv.Perm Str} (h : KeepsStorage σ) : KeepsStorage σ.symm :=
  ⟨by rw [Equiv.symm_apply_eq]; exact h.1.symm, by rw [Equiv.symm_apply_eq]; exact h.2.symm⟩

theorem rel_symm {σ : Equiv.Perm Str} {o o' : Option SimpleExtrinsic} (h : Option.Rel (RenamedCall σ) o o') : Option.Rel (RenamedCall σ.symm) o' o := by
  cases h with
  | none => exact .none
  | some h => exact .some (renamed_symm h)

theorem occurs_rename {σ : Equiv.Perm Str} {t : SimpleTerm} {x : Str} (h : Occurs x t) : Occurs (σ x) (renameTerm σ t) := by
  induction h with
  | here => exact .here
  | addL _ ih => exact .addL ih
  | addR _ ih => exact .addR ih
  | mulL _ ih => exact .mulL ih
  | mulR _ ih => exact .mulR ih

/-- Evaluation does not depend on names. -/
theorem eval_rename {b : Build} {σ : Equiv.Perm Str} {t : SimpleTerm} {s s' : SimpleScope}
    (h : ∀ x, Occurs x t → ∃ n, binding s x = some (.scalar n) ∧ binding s' (σ x) = some (.scalar n)) :
    eval b (renameTerm σ t) s' = eval b t s := by
  induction t with
  | value => rw [renameTerm, eval_value, eval_value]
  | scalar => rw [renameTerm, eval_scalar, eval_scalar]
  | var x =>
    obtain ⟨n, h1, h2⟩ := h x .here
    rw [renameTerm, eval_var, eval_var, h1, h2]
    simp only [eval_scalar]
  | add l r hl hr => rw [renameTerm, eval_add, eval_add, hl fun x hx => h x (.addL hx), hr fun x hx => h x (.addR hx)]
  | mul l r hl hr => rw [renameTerm, eval_mul, eval_mul, hl fun x hx => h x (.mulL hx), hr fun x hx => h x (.mulR hx)]

section
variable {σ : Equiv.Perm Str} {old new old' new' : Option SimpleExtrinsic}

theorem rel_some {R : SimpleExtrinsic → SimpleExtrinsic → Prop} {o o' : Option SimpleExtrinsic} (h : Option.Rel R o o') {e : SimpleExtrinsic}
    (he : o = some e) : ∃ e', o' = some e' ∧ R e e' := by
  cases h with
  | none => cases he
  | some h => cases he; exact ⟨_, rfl, h⟩

theorem component_rename (hk : KeepsStorage σ) (ho : Option.Rel (RenamedCall σ) old old') (hn : Option.Rel (RenamedCall σ) new new') {x : Str}
    (h : Component old new x) : Component old' new' (σ x) := by
  obtain ⟨⟨e, he, hx⟩, h1, h2⟩ := h
  refine ⟨?_, fun h => h1 (σ.injective (h.trans hk.1.symm)), fun h => h2 (σ.injective (h.trans hk.2.symm))⟩
  rcases he with he | he
  · obtain ⟨e', he', hr⟩ := rel_some ho he
    exact ⟨e', .inl he', by rw [hr.1]; exact occurs_rename hx⟩
  · obtain ⟨e', he', hr⟩ := rel_some hn he
    exact ⟨e', .inr he', by rw [hr.1]; exact occurs_rename hx⟩

theorem annotated_rename (ho : Option.Rel (RenamedCall σ) old old') (hn : Option.Rel (RenamedCall σ) new new') {x : Str} {r : ComponentRange}
    (h : Annotated old new x r) : Annotated old' new' (σ x) r := by
  have key : ∀ {g g' : SimpleExtrinsic} {m}, RenamedCall σ g g' → g.compRanges = some m → binding m x = some r →
      ∃ m', g'.compRanges = some m' ∧ binding m' (σ x) = some r := by
    intro g g' m hr h1 h2
    have e : annotation g x = some r := by unfold annotation; rw [h1]; exact h2
    rw [← hr.2 x] at e
    unfold annotation at e
    cases hg : g'.compRanges with
    | none => rw [hg] at e; cases e
    | some m' => rw [hg] at e; exact ⟨m', rfl, e⟩
  obtain ⟨e, m, he, h1, h2⟩ := h
  rcases he with he | he
  · obtain ⟨e', he', hr⟩ := rel_some ho he
    obtain ⟨m', h3, h4⟩ := key hr h1 h2
    exact ⟨e', m', .inl he', h3, h4⟩
  · obtain ⟨e', he', hr⟩ := rel_some hn he
    obtain ⟨m', h3, h4⟩ := key hr h1 h2
    exact ⟨e', m', .inr he', h3, h4⟩

theorem annotated_rename_iff (ho : Option.Rel (RenamedCall σ) old old') (hn : Option.Rel (RenamedCall σ) new new') (x : Str) (r : ComponentRange) :
    Annotated old' new' (σ x) r ↔ Annotated old new x r := by
  refine ⟨fun h => ?_, annotated_rename ho hn⟩
  have := annotated_rename (rel_symm ho) (rel_symm hn) h
  rwa [Equiv.symm_apply_apply] at this

theorem isLow_rename (ho : Option.Rel (RenamedCall σ) old old') (hn : Option.Rel (RenamedCall σ) new new') (m : CompareMethod) (x : Str) (n : Nat) :
    (IsLow m old' new' (σ x) n ↔ IsLow m old new x n) ∧ (IsHigh m old' new' (σ x) n ↔ IsHigh m old new x n) := by
  have hmin : MinInst old' new' (σ x) n ↔ MinInst old new x n := by simp only [MinInst, annotated_rename_iff ho hn]
  have hmax : MaxInst old' new' (σ x) n ↔ MaxInst old new x n := by simp only [MaxInst, annotated_rename_iff ho hn]
  cases m <;> exact ⟨by first | exact hmin | exact hmax, by first | exact hmin | exact hmax⟩

theorem refused_rename (hk : KeepsStorage σ) (ho : Option.Rel (RenamedCall σ) old old') (hn : Option.Rel (RenamedCall σ) new new') {m : CompareMethod}
    (h : Refused m old new) : Refused m old' new' := by
  rcases h with ⟨l, h1, h2, h3⟩ | ⟨he, x, hx, hu⟩
  · refine .inl ⟨l.map σ, h1.map σ.injective, by rwa [List.length_map], fun y hy => ?_⟩
    obtain ⟨x, hx, rfl⟩ := List.mem_map.1 hy
    exact component_rename hk ho hn (h3 x hx)
  · refine .inr ⟨he, σ x, component_rename hk ho hn hx, fun ⟨r, hr, hr'⟩ => hu ⟨r, (annotated_rename_iff ho hn x r).1 hr, fun r' h' => ?_⟩⟩
    exact hr' r' ((annotated_rename_iff ho hn x r').2 h')

/-- The point with the new names. -/
theorem corner_rename (hk : KeepsStorage σ) (ho : Option.Rel (RenamedCall σ) old old') (hn : Option.Rel (RenamedCall σ) new new') {d : Dimension}
    {m : CompareMethod} {s : SimpleScope} (h : Corner d m old new s) :
    ∃ s', Corner d m old' new' s' ∧ ∀ x n, binding s x = some (.scalar n) → binding s' (σ x) = some (.scalar n) := by
  have back : ∀ y, Component old' new' y → Component old new (σ.symm y) := fun y hy =>
    component_rename (keeps_symm hk) (rel_symm ho) (rel_symm hn) hy
  obtain ⟨s', hc, hb⟩ := corner_at d m old' new' (fun y => assignment s (σ.symm y)) (by
    intro y hy
    obtain ⟨n, h1, h2⟩ := h.2.2.2.1 _ (back y hy)
    have e : assignment s (σ.symm y) = n := by unfold assignment; rw [h1]
    rw [e]
    have := isLow_rename ho hn m (σ.symm y) n
    rw [Equiv.apply_symm_apply] at this
    exact h2.imp this.1.2 this.2.2)
  refine ⟨s', hc, fun x n hx => ?_⟩
  rcases h.2.2.2.2 x _ hx with rfl | rfl | hx'
  · rw [hk.1, hc.2.1, ← h.2.1, hx]
  · rw [hk.2, hc.2.2.1, ← h.2.2.1, hx]
  · rw [hb _ (component_rename hk ho hn hx'), Equiv.symm_apply_apply]
    unfold assignment
    rw [hx]

/-- Every variable has a number at a point. -/
theorem corner_number {d : Dimension} {m : CompareMethod} {s : SimpleScope} (h : Corner d m old new s) {e : SimpleExtrinsic} (he : old = some e ∨ new = some e)
    {x : Str} (hx : Occurs x e.term) : ∃ n, binding s x = some (.scalar n) := by
  by_cases h1 : x = str% "READ"
  · exact ⟨_, h1 ▸ h.2.1⟩
  by_cases h2 : x = str% "WRITE"
  · exact ⟨_, h2 ▸ h.2.2.1⟩
  obtain ⟨n, hn, _⟩ := h.2.2.2.1 x ⟨⟨e, he, hx⟩, h1, h2⟩
  exact ⟨n, hn⟩

theorem valueAt_rename {b : Build} {d : Dimension} {m : CompareMethod} {s s' : SimpleScope} {o o' : Option SimpleExtrinsic} (ho : Option.Rel (RenamedCall σ) o o')
    (hin : o = old ∨ o = new) (h : Corner d m old new s) (hb : ∀ x n, binding s x = some (.scalar n) → binding s' (σ x) = some (.scalar n))
    {v : Option Nat} : ValueAt b o' s' v ↔ ValueAt b o s v := by
  cases ho with
  | none => exact Iff.rfl
  | @some e e' hr =>
    have : eval b e'.term s' = eval b e.term s := by
      rw [hr.1]
      refine eval_rename fun x hx => ?_
      obtain ⟨n, hn⟩ := corner_number h (hin.imp Eq.symm Eq.symm) hx
      exact ⟨n, hn, hb x n hn⟩
    simp only [ValueAt, this]

end

/-- C105: with other names for the parameters in both versions, comparisons are refused exactly as before. -/
theorem C105_refused (b : Build) (ho ho' : HashOrder) (σ : Equiv.Perm Str) (hk : KeepsStorage σ) (old new old' new' : Option SimpleExtrinsic)
    (hO : Option.Rel (RenamedCall σ) old old') (hN : Option.Rel (RenamedCall σ) new new') (p : CompareParams) (h0 : old ≠ none ∨ new ≠ none) :
    (∃ m, compareExtrinsics b ho old new p = .err m) ↔ ∃ m, compareExtrinsics b ho' old' new' p = .err m := by
  have key : ∀ (b : Build) (ho : HashOrder) (old new : Option SimpleExtrinsic), (old ≠ none ∨ new ≠ none) →
      ((∃ m, compareExtrinsics b ho old new p = .err m) ↔ Refused p.method old new) := by
    intro b ho old new h0
    refine ⟨fun ⟨m, hm⟩ => ?_, fun h => (compareExtrinsics_spec b ho old new p h0).1 h⟩
    by_contra hr
    cases b with
    | release =>
      obtain ⟨r, h⟩ := (C26_total_release ho old new p h0).2 hr
      rw [h] at hm; cases hm
    | debug =>
      rcases (C26_total_debug ho old new p h0).2 hr with ⟨r, h⟩ | ⟨h, _⟩ <;> (rw [h] at hm; cases hm)
  have h0' : old' ≠ none ∨ new' ≠ none := by
    refine h0.imp (fun h h' => h ?_) (fun h h' => h ?_)
    · subst h'; cases hO; rfl
    · subst h'; cases hN; rfl
  rw [key b ho old new h0, key b ho' old' new' h0']
  exact ⟨refused_rename hk hO hN, fun h => refused_rename (keeps_symm hk) (rel_symm hO) (rel_symm hN) h⟩

theorem changeAt_rename {b : Build} {σ : Equiv.Perm Str} {old new old' new' : Option SimpleExtrinsic} (hO : Option.Rel (RenamedCall σ) old old')
    (hN : Option.Rel (RenamedCall σ) new new') {d : Dimension} {m : CompareMethod} {s s' : SimpleScope} (hc : Corner d m old new s)
    (hb : ∀ x n, binding s x = some (.scalar n) → binding s' (σ x) = some (.scalar n)) {r r' : TermChange} (h : ChangeAt b old new s r)
    (h' : ChangeAt b old' new' s' r') : r'.oldV = r.oldV ∧ r'.newV = r.newV ∧ r'.percent = r.percent := by
  obtain ⟨_, h1, h2, h3⟩ := h
  obtain ⟨_, h1', h2', h3'⟩ := h'
  have a1 := (valueAt_rename hO (.inl rfl) hc hb).1 h1'
  have a2 := (valueAt_rename hN (.inr rfl) hc hb).1 h2'
  have u : ∀ {o : Option SimpleExtrinsic} {v v' : Option Nat}, ValueAt b o s v → ValueAt b o s v' → v = v' := by
    intro o v v' h h'
    cases o with
    | none => exact (show v = none from h).trans (show v' = none from h').symm
    | some e =>
      obtain ⟨n, rfl, hn⟩ := h
      obtain ⟨n', rfl, hn'⟩ := h'
      rw [hn] at hn'
      cases hn'
      rfl
  have e1 := u a1 h1
  have e2 := u a2 h2
  exact ⟨e1, e2, by rw [h3, h3', e1, e2]⟩

theorem minInst_exists (old new : Option SimpleExtrinsic) (x : Str) : ∃ n, MinInst old new x n := by
  classical
  by_cases h : ∃ n r, Annotated old new x r ∧ r.min = n
  · exact ⟨Nat.find h, .inr ⟨Nat.find_spec h, fun r hr => Nat.find_min' h ⟨r, hr, rfl⟩⟩⟩
  · exact ⟨0, .inl ⟨fun r hr => h ⟨_, r, hr, rfl⟩, rfl⟩⟩

/-- An added or removed call is evaluated with all parameters at their low instances. -/
theorem single_low {b : Build} {ho : HashOrder} {old new : Option SimpleExtrinsic} {p : CompareParams} {r : TermChange}
    (h : compareExtrinsics b ho old new p = .ok r) (hone : old = none ∨ new = none) (hwf : ∀ x q, Annotated old new x q → q.min ≤ q.max)
    {x : Str} (hx : Component old new x) {n : Nat} (hb : binding r.scope x = some (.scalar n)) : IsLow p.method old new x n := by
  obtain ⟨c, _, _⟩ := C25_reported_is_corner b ho old new p r h
  obtain ⟨k, hk, hl⟩ := c.2.2.2.1 x hx
  rw [hk] at hb
  cases hb
  rcases hl with hl | hl
  · exact hl
  · have worst : p.method = .guessWorst ∨ p.method = .exactWorst → IsLow p.method old new x n := by
      intro hm
      obtain ⟨lo, hlo⟩ := minInst_exists old new x
      have h1 : IsLow p.method old new x lo := by rcases hm with hm | hm <;> rw [hm] <;> exact hlo
      have h2 : MaxInst old new x n := by rcases hm with hm | hm <;> rw [hm] at hl <;> exact hl
      have := C25_single_version_low b ho old new hone p r h x hx lo n h1 hl (min_le_max hwf hlo h2)
      rw [hk] at this
      cases this
      exact h1
    cases hm : p.method with
    | base => rw [hm] at hl; exact hl
    | exactWorst => rw [← hm]; exact worst (.inr hm)
    | guessWorst => rw [← hm]; exact worst (.inl hm)
    | exactAsymptotic => rw [hm] at hl; exact hl
    | asymptotic => rw [hm] at hl; exact hl

/-- C105: with other names for the parameters in both versions, the comparison reports the same change; methods that look at one point report the
same values at the same point, and so does every method for added and removed calls. -/
theorem C105_renamed (b : Build) (ho ho' : HashOrder) (σ : Equiv.Perm Str) (hk : KeepsStorage σ) (old new old' new' : Option SimpleExtrinsic)
    (hO : Option.Rel (RenamedCall σ) old old') (hN : Option.Rel (RenamedCall σ) new new') (p : CompareParams) (r : TermChange)
    (h : compareExtrinsics b ho old new p = .ok r) :
    ∃ r', compareExtrinsics b ho' old' new' p = .ok r' ∧
      (r'.change = .added ↔ r.change = .added) ∧ (r'.change = .removed ↔ r.change = .removed) ∧
      (old ≠ none → new ≠ none → rank r'.percent = rank r.percent) ∧
      ((OnePoint p.method ∨ (old = none ∨ new = none) ∧ ∀ x q, Annotated old new x q → q.min ≤ q.max) →
        r'.oldV = r.oldV ∧ r'.newV = r.newV ∧ r'.percent = r.percent ∧
        ∀ x n, binding r.scope x = some (.scalar n) → binding r'.scope (σ x) = some (.scalar n)) := by
  have hO' := rel_symm hO
  have hN' := rel_symm hN
  have hk' := keeps_symm hk
  obtain ⟨hn, _⟩ := compare_ok h
  have h0 := compareExtrinsics_not_none h
  have h0' : old' ≠ none ∨ new' ≠ none := by
    refine h0.imp (fun h h' => h ?_) (fun h h' => h ?_)
    · subst h'; cases hO; rfl
    · subst h'; cases hN; rfl
  obtain ⟨r', h'⟩ := compare_exists (b := b) (ho := ho') (params := p) h0' (fun hr => hn (refused_rename hk' hO' hN' hr)) (by
    intro s' hc' e' he'
    obtain ⟨s, hc, hb⟩ := corner_rename hk' hO' hN' hc'
    have key : ∀ {o o' : Option SimpleExtrinsic}, Option.Rel (RenamedCall σ) o o' → (o = old ∨ o = new) → (o' = old' ∨ o' = new') → o' = some e' →
        ∃ n, eval b e'.term s' = .ok n := by
      intro o o' hr hin hin' he
      obtain ⟨e, he1, hre⟩ := rel_some (rel_symm hr) he
      obtain ⟨n, hn⟩ := compare_ok_eval h s hc e (hin.imp (fun h => h.symm.trans he1) (fun h => h.symm.trans he1))
      refine ⟨n, ?_⟩
      rw [← hn, hre.1]
      symm
      refine eval_rename fun x hx => ?_
      obtain ⟨k, hk⟩ := corner_number hc' he' hx
      exact ⟨k, hk, hb x k hk⟩
    rcases he' with he | he
    · exact key hO (.inl rfl) (.inl rfl) he
    · exact key hN (.inr rfl) (.inr rfl) he)
  obtain ⟨c, ca, _⟩ := C25_reported_is_corner b ho old new p r h
  obtain ⟨c', ca', _⟩ := C25_reported_is_corner b ho' old' new' p r' h'
  obtain ⟨s', hs', hb⟩ := corner_rename hk hO hN c
  obtain ⟨s, hs, hb'⟩ := corner_rename hk' hO' hN' c'
  refine ⟨r', h', ?_, ?_, ?_, ?_⟩
  · rw [(C27_kinds b ho' _ _ _ _ h').1, (C27_kinds b ho _ _ _ _ h).1]
    cases hO <;> simp
  · rw [(C27_kinds b ho' _ _ _ _ h').2.1, (C27_kinds b ho _ _ _ _ h).2.1]
    cases hN <;> simp
  · intro ho1 hn1
    cases hO with
    | none => exact absurd rfl ho1
    | @some o o' hO =>
      cases hN with
      | none => exact absurd rfl hn1
      | @some n n' hN =>
        obtain ⟨q, hq, hm⟩ := C25_maximal b ho o n p r h _ hs
        obtain ⟨q', hq', hm'⟩ := C25_maximal b ho' o' n' p r' h' _ hs'
        have e1 := (changeAt_rename (.some hO) (.some hN) c hb ca hq').2.2
        have e2 := (changeAt_rename (σ := σ.symm) (.some (renamed_symm hO)) (.some (renamed_symm hN)) c' hb' ca' hq).2.2
        rw [e2] at hm
        rw [e1] at hm'
        rcases hm with hm | ⟨hm, _⟩ <;> rcases hm' with hm' | ⟨hm', _⟩ <;> omega
  · intro hone
    have hss : s' = r'.scope := by
      refine corner_eq hs' c' fun y hy => ?_
      obtain ⟨k, hk1, hk2⟩ := hs'.2.2.2.1 y hy
      obtain ⟨k', hk1', hk2'⟩ := c'.2.2.2.1 y hy
      rcases hone with hm | ⟨hnone, hwf⟩
      · have : k = k' := by
          rcases hm with hm | hm | hm <;> rw [hm] at hk2 hk2'
          · exact minInst_unique (hk2.elim id id) (hk2'.elim id id)
          · exact maxInst_unique (hk2.elim id id) (hk2'.elim id id)
          · exact maxInst_unique (hk2.elim id id) (hk2'.elim id id)
        rw [hk1, hk1', this]
      · have hx : Component old new (σ.symm y) := component_rename hk' hO' hN' hy
        obtain ⟨j, hj, _⟩ := c.2.2.2.1 _ hx
        have hjl := single_low h hnone hwf hx hj
        have hjb := hb _ _ hj
        rw [Equiv.apply_symm_apply, hk1] at hjb
        cases hjb
        have hlow : IsLow p.method old' new' y k := by
          have := (isLow_rename hO hN p.method (σ.symm y) k).1.2 hjl
          rwa [Equiv.apply_symm_apply] at this
        have hwf' : ∀ x q, Annotated old' new' x q → q.min ≤ q.max := fun x q hq => hwf _ q (annotated_rename hO' hN' hq)
        have hnone' : old' = none ∨ new' = none := by
          rcases hnone with rfl | rfl
          · cases hO; exact .inl rfl
          · cases hN; exact .inr rfl
        rw [hk1, hk1', low_unique hlow (single_low h' hnone' hwf' hy hk1')]
    obtain ⟨e1, e2, e3⟩ := changeAt_rename hO hN c hb ca (hss ▸ ca')
    exact ⟨e1, e2, e3, fun x n hx => hss ▸ hb x n hx⟩

theorem sameEquation_rename {σ : Equiv.Perm Str} (hk : KeepsStorage σ) (d : Dimension) (t u : SimpleTerm)
    (h : ∀ x y, Occurs x t → Occurs y u → (x.filter (· != '_') = y.filter (· != '_') ↔ (σ x).filter (· != '_') = (σ y).filter (· != '_'))) :
    SameEquation d (renameTerm σ t) (renameTerm σ u) ↔ SameEquation d t u := by
  have st : ∀ x, (σ x = str% "READ" ∨ σ x = str% "WRITE") ↔ (x = str% "READ" ∨ x = str% "WRITE") := by
    intro x
    constructor
    · exact Or.imp (fun h => σ.injective (h.trans hk.1.symm)) (fun h => σ.injective (h.trans hk.2.symm))
    · rintro (rfl | rfl)
      · exact .inl hk.1
      · exact .inr hk.2
  unfold SameEquation
  induction t generalizing u with
  | value n =>
    cases u with
    | var y => simp only [renameTerm, costed, st]; split <;> simp [eraseUnderscores]
    | _ => simp [renameTerm, costed, eraseUnderscores]
  | scalar n =>
    cases u with
    | var y => simp only [renameTerm, costed, st]; split <;> simp [eraseUnderscores]
    | _ => simp [renameTerm, costed, eraseUnderscores]
  | var x =>
    cases u with
    | var y =>
      have := h x y .here .here
      simp only [renameTerm, costed, st]
      split <;> split <;> simp only [eraseUnderscores, Term.var.injEq, this, reduceCtorEq]
    | _ => simp only [renameTerm, costed, st]; split <;> simp [eraseUnderscores]
  | add l r hl hr =>
    cases u with
    | var y => simp only [renameTerm, costed, st]; split <;> simp [eraseUnderscores]
    | add l' r' =>
      simp only [renameTerm, costed, eraseUnderscores, Term.add.injEq]
      exact and_congr (hl l' fun x y hx hy => h x y (.addL hx) (.addL hy)) (hr r' fun x y hx hy => h x y (.addR hx) (.addR hy))
    | _ => simp [renameTerm, costed, eraseUnderscores]
  | mul l r hl hr =>
    cases u with
    | var y => simp only [renameTerm, costed, st]; split <;> simp [eraseUnderscores]
    | mul l' r' =>
      simp only [renameTerm, costed, eraseUnderscores, Term.mul.injEq]
      exact and_congr (hl l' fun x y hx hy => h x y (.mulL hx) (.mulL hy)) (hr r' fun x y hx hy => h x y (.mulR hx) (.mulR hy))
    | _ => simp [renameTerm, costed, eraseUnderscores]

/-- C105: … and calls it unchanged exactly if it did before, unless the new names confuse parameters that the old names did not (names that differ in
underscores only count as the same). -/
theorem C105_kind (b : Build) (ho ho' : HashOrder) (σ : Equiv.Perm Str) (hk : KeepsStorage σ) (old new old' new' : SimpleExtrinsic)
    (hO : RenamedCall σ old old') (hN : RenamedCall σ new new') (p : CompareParams) (r r' : TermChange)
    (h : compareExtrinsics b ho (some old) (some new) p = .ok r) (h' : compareExtrinsics b ho' (some old') (some new') p = .ok r')
    (hsame : ∀ x y, Occurs x old.term → Occurs y new.term →
      (x.filter (· != '_') = y.filter (· != '_') ↔ (σ x).filter (· != '_') = (σ y).filter (· != '_'))) : r'.change = r.change := by
  obtain ⟨a1, a2, a3, a4⟩ := C27_kinds b ho _ _ _ _ h
  obtain ⟨b1, b2, b3, b4⟩ := C27_kinds b ho' _ _ _ _ h'
  have key := sameEquation_rename hk p.unit old.term new.term hsame
  rw [← hO.1, ← hN.1] at key
  by_cases hs : SameEquation p.unit old.term new.term
  · rw [b3.2 ⟨_, _, rfl, rfl, key.2 hs⟩, a3.2 ⟨_, _, rfl, rfl, hs⟩]
  · rw [b4.2 ⟨_, _, rfl, rfl, mt key.1 hs⟩, a4.2 ⟨_, _, rfl, rfl, hs⟩]

/-! ### Other names in one version only -/

theorem annotated_alone {e : SimpleExtrinsic} {x : Str} {r : ComponentRange} : Annotated (some e) none x r ↔ annotation e x = some r := by
  unfold annotation
  constructor
  · rintro ⟨g, m, h | h, h1, h2⟩
    · cases h; rw [h1]; exact h2
    · cases h
  · intro h
    cases hg : e.compRanges with
    | none => rw [hg] at h; cases h
    | some m => rw [hg] at h; exact ⟨e, m, .inl rfl, hg, h⟩

/-- C105, against what one would expect: if the new version differs from the old one in the names of the parameters only (so it costs the same for
the same arguments), every method compares it as if the parameters of both versions had nothing to do with each other.  In particular, with the
worst-case methods, the change reported is at least that between any two points of the *same* call. -/
theorem C105_false_one_sided (b : Build) (ho : HashOrder) (σ : Equiv.Perm Str) (hk : KeepsStorage σ) (e e' : SimpleExtrinsic) (hR : RenamedCall σ e e')
    (hfresh : ∀ x, Component (some e) none x → ¬ Component (some e) none (σ x) ∧ annotation e (σ x) = none ∧ annotation e' x = none)
    (p : CompareParams) (r : TermChange) (h : compareExtrinsics b ho (some e) (some e') p = .ok r)
    (s1 s2 : SimpleScope) (h1 : Corner p.unit p.method (some e) none s1) (h2 : Corner p.unit p.method (some e) none s2) :
    ∃ v1 v2, eval b e.term s1 = .ok v1 ∧ eval b e.term s2 = .ok v2 ∧ rank (percent v1 v2) ≤ rank r.percent := by
  classical
  have hcomp : ∀ y, Component (some e) (some e') y ↔ Component (some e) none y ∨ Component (some e) none (σ.symm y) := by
    intro y
    have back : ∀ y, Component (some e') none y → Component (some e) none (σ.symm y) := fun y hy =>
      component_rename (keeps_symm hk) (rel_symm (.some hR)) .none hy
    constructor
    · rintro ⟨⟨g, hg | hg, ho⟩, hn⟩
      · exact .inl ⟨⟨g, .inl hg, ho⟩, hn⟩
      · cases hg; exact .inr (back y ⟨⟨_, .inl rfl, ho⟩, hn⟩)
    · rintro (⟨⟨g, hg, ho⟩, hn⟩ | hy)
      · rcases hg with hg | hg
        · exact ⟨⟨g, .inl hg, ho⟩, hn⟩
        · cases hg
      · have := component_rename (σ := σ) hk (.some hR) .none hy
        rw [Equiv.apply_symm_apply] at this
        obtain ⟨⟨g, hg, ho⟩, hn⟩ := this
        rcases hg with hg | hg
        · exact ⟨⟨g, .inr hg, ho⟩, hn⟩
        · cases hg
  have hann : ∀ x, Component (some e) none x → ∀ q, (Annotated (some e) (some e') x q ↔ Annotated (some e) none x q) ∧
      (Annotated (some e) (some e') (σ x) q ↔ Annotated (some e) none x q) := by
    intro x hx q
    obtain ⟨_, f1, f2⟩ := hfresh x hx
    rw [annotated_ranges, annotated_ranges, annotated_alone, f1, f2, hR.2 x]
    simp
  have hinst : ∀ x, Component (some e) none x → ∀ n,
      (IsLow p.method (some e) none x n ∨ IsHigh p.method (some e) none x n) →
      (IsLow p.method (some e) (some e') x n ∨ IsHigh p.method (some e) (some e') x n) ∧
      (IsLow p.method (some e) (some e') (σ x) n ∨ IsHigh p.method (some e) (some e') (σ x) n) := by
    intro x hx n hn
    have m1 : MinInst (some e) (some e') x n ↔ MinInst (some e) none x n := by simp only [MinInst, (hann x hx _).1]
    have m2 : MinInst (some e) (some e') (σ x) n ↔ MinInst (some e) none x n := by simp only [MinInst, (hann x hx _).2]
    have m3 : MaxInst (some e) (some e') x n ↔ MaxInst (some e) none x n := by simp only [MaxInst, (hann x hx _).1]
    have m4 : MaxInst (some e) (some e') (σ x) n ↔ MaxInst (some e) none x n := by simp only [MaxInst, (hann x hx _).2]
    cases hm : p.method <;> rw [hm] at hn <;> simp only [IsLow, IsHigh, m1, m2, m3, m4] at hn ⊢ <;> exact ⟨hn, hn⟩
  obtain ⟨s, hs, hsb⟩ := corner_at p.unit p.method (some e) (some e')
    (fun y => if Component (some e) none y then assignment s1 y else assignment s2 (σ.symm y)) (by
      intro y hy
      by_cases hc : Component (some e) none y
      · simp only [if_pos hc]
        obtain ⟨n, a1, a2⟩ := h1.2.2.2.1 y hc
        have : assignment s1 y = n := by unfold assignment; rw [a1]
        rw [this]
        exact (hinst y hc n a2).1
      · simp only [if_neg hc]
        have hc' := ((hcomp y).1 hy).resolve_left hc
        obtain ⟨n, a1, a2⟩ := h2.2.2.2.1 _ hc'
        have : assignment s2 (σ.symm y) = n := by unfold assignment; rw [a1]
        rw [this]
        have := (hinst _ hc' n a2).2
        rwa [Equiv.apply_symm_apply] at this)
  obtain ⟨q, ⟨_, ⟨v1, ev1, hv1⟩, ⟨v2, ev2, hv2⟩, hp⟩, hmax⟩ := C25_maximal b ho e e' p r h s hs
  have E1 : eval b e.term s1 = eval b e.term s := by
    refine eval_same fun x hx => ?_
    by_cases x1 : x = str% "READ"
    · subst x1; exact ⟨_, h1.2.1, hs.2.1⟩
    by_cases x2 : x = str% "WRITE"
    · subst x2; exact ⟨_, h1.2.2.1, hs.2.2.1⟩
    have hc : Component (some e) none x := ⟨⟨e, .inl rfl, hx⟩, x1, x2⟩
    obtain ⟨n, a1, _⟩ := h1.2.2.2.1 x hc
    refine ⟨n, a1, ?_⟩
    rw [hsb x ((hcomp x).2 (.inl hc)), if_pos hc]
    unfold assignment; rw [a1]
  have E2 : eval b e'.term s = eval b e.term s2 := by
    rw [hR.1]
    refine eval_rename fun x hx => ?_
    by_cases x1 : x = str% "READ"
    · subst x1; exact ⟨_, h2.2.1, by rw [hk.1]; exact hs.2.1⟩
    by_cases x2 : x = str% "WRITE"
    · subst x2; exact ⟨_, h2.2.2.1, by rw [hk.2]; exact hs.2.2.1⟩
    have hc : Component (some e) none x := ⟨⟨e, .inl rfl, hx⟩, x1, x2⟩
    obtain ⟨n, a1, _⟩ := h2.2.2.2.1 x hc
    refine ⟨n, a1, ?_⟩
    rw [hsb (σ x) ((hcomp _).2 (.inr (by rwa [Equiv.symm_apply_apply]))), if_neg (hfresh x hc).1, Equiv.symm_apply_apply]
    unfold assignment; rw [a1]
  refine ⟨v1, v2, E1.trans hv1, E2.symm.trans hv2, ?_⟩
  rw [ev1, ev2] at hp
  have hp' : q.percent = percent v1 v2 := hp
  rw [hp'] at hmax
  rcases hmax with hm | ⟨hm, _⟩ <;> omega

/-! ### Examples -/

/-- The parameter `n` gets the name `m`. -/
def exNames : Equiv.Perm Str := Equiv.swap (str% "n") (str% "m")

/-- `c + k * m` with `m` in `[lo, hi]`. -/
def exFromM (c k lo hi : Nat) : SimpleExtrinsic :=
  { name := str% "f", pallet := str% "p", term := .add (.value c) (.mul (.value k) (.var (str% "m"))),
    compRanges := some [(str% "m", ⟨lo, hi⟩)] }

theorem exNames_keeps : KeepsStorage exNames := ⟨by decide, by decide⟩

theorem exNames_renamed (c k lo hi : Nat) : RenamedCall exNames (exFrom c k lo hi) (exFromM c k lo hi) := by
  refine ⟨by simp [exFrom, exFromM, renameTerm, exNames], fun x => ?_⟩
  have h1 : annotation (exFromM c k lo hi) (exNames x) = if exNames x = str% "m" then some ⟨lo, hi⟩ else none := rfl
  have h2 : annotation (exFrom c k lo hi) x = if x = str% "n" then some ⟨lo, hi⟩ else none := rfl
  have h3 : exNames x = str% "m" ↔ x = str% "n" := by
    rw [show str% "m" = exNames (str% "n") from (Equiv.swap_apply_left _ _).symm]
    exact exNames.injective.eq_iff
  rw [h1, h2]
  simp only [h3]

theorem exFrom_component {c k lo hi : Nat} {x : Str} : Component (some (exFrom c k lo hi)) none x ↔ x = str% "n" := by
  constructor
  · rintro ⟨⟨e, he, hx⟩, _⟩
    rcases he with he | he
    · cases he
      cases hx with
      | addL h => cases h
      | addR h =>
        cases h with
        | mulL h => cases h
        | mulR h => cases h; rfl
    · cases he
  · rintro rfl
    exact ⟨⟨_, .inl rfl, .addR (.mulR .here)⟩, by decide, by decide⟩

theorem exFrom_eval {b : Build} {c k lo hi n : Nat} {s : SimpleScope} (hfit : c + k * n < 2 ^ 128) (hb : binding s (str% "n") = some (.scalar n)) :
    eval b (exFrom c k lo hi).term s = .ok (c + k * n) := by
  have hmul : k * n < u128Size := by unfold u128Size; omega
  have hadd : c + k * n < u128Size := hfit
  change eval b (.add (.value c) (.mul (.value k) (.var (str% "n")))) s = _
  simp only [eval_add, eval_mul, eval_value, eval_var, hb, eval_scalar, Res.bind_ok, addU128, mulU128, if_pos hmul, if_pos hadd]

/-- C105: the change reported for `c + k * n` with `n` in `[lo, hi]`, after `n` has been renamed `m` and nothing else has changed: at least that from
the smallest weight to the largest weight. -/
theorem C105_false_rename (b : Build) (ho : HashOrder) (c k lo hi : Nat) (hfit : c + k * hi < 2 ^ 128) (hlh : lo ≤ hi) (d : Dimension)
    (m : CompareMethod) (hm : m = .guessWorst ∨ m = .exactWorst) (r : TermChange)
    (h : compareExtrinsics b ho (some (exFrom c k lo hi)) (some (exFromM c k lo hi)) (exParams m d) = .ok r) :
    r.change = .changed ∧ rank (percent (c + k * lo) (c + k * hi)) ≤ rank r.percent := by
  have hann : ∀ q, Annotated (some (exFrom c k lo hi)) none (str% "n") q ↔ q = ⟨lo, hi⟩ := by
    intro q
    rw [annotated_alone]
    have e1 : annotation (exFrom c k lo hi) (str% "n") = some ⟨lo, hi⟩ := rfl
    rw [e1]
    simp only [Option.some.injEq]
    exact eq_comm
  have hlow : IsLow m (some (exFrom c k lo hi)) none (str% "n") lo := by
    have : MinInst (some (exFrom c k lo hi)) none (str% "n") lo := .inr ⟨⟨_, (hann _).2 rfl, rfl⟩, fun q hq => by rw [(hann q).1 hq]⟩
    rcases hm with rfl | rfl <;> exact this
  have hhigh : IsHigh m (some (exFrom c k lo hi)) none (str% "n") hi := by
    have : MaxInst (some (exFrom c k lo hi)) none (str% "n") hi := .inr ⟨⟨_, (hann _).2 rfl, rfl⟩, fun q hq => by rw [(hann q).1 hq]⟩
    rcases hm with rfl | rfl <;> exact this
  obtain ⟨s1, c1, b1⟩ := corner_at d m (some (exFrom c k lo hi)) none (fun _ => lo) (fun x hx => by rw [exFrom_component.1 hx]; exact .inl hlow)
  obtain ⟨s2, c2, b2⟩ := corner_at d m (some (exFrom c k lo hi)) none (fun _ => hi) (fun x hx => by rw [exFrom_component.1 hx]; exact .inr hhigh)
  have hn : Component (some (exFrom c k lo hi)) none (str% "n") := exFrom_component.2 rfl
  constructor
  · refine (C27_kinds b ho _ _ _ _ h).2.2.2.2 ⟨_, _, rfl, rfl, ?_⟩
    cases d <;> simp [SameEquation, exFrom, exFromM, costed, eraseUnderscores]
  · obtain ⟨v1, v2, e1, e2, hr⟩ := C105_false_one_sided b ho exNames exNames_keeps _ _ (exNames_renamed c k lo hi) (by
      intro x hx
      rw [exFrom_component.1 hx]
      have e : exNames (str% "n") = str% "m" := Equiv.swap_apply_left _ _
      rw [e]
      exact ⟨fun h => by have := exFrom_component.1 h; revert this; decide, rfl, rfl⟩) _ r h s1 s2 c1 c2
    rw [exFrom_eval (by have := Nat.mul_le_mul_left k hlh; omega) (b1 _ hn)] at e1
    rw [exFrom_eval hfit (b2 _ hn)] at e2
    cases e1
    cases e2
    exact hr

-- A call of which only the name of the parameter has changed is reported as eleven times as heavy.
example : (compareExtrinsics .release idOrder (some (exFrom 100 10 0 100)) (some (exFromM 100 10 0 100)) (exParams .guessWorst .time)).map
    (fun r => (r.oldV, r.newV, r.percent)) = .ok (some 100, some 1100, .fin 1000) := by decide +kernel
-- The two versions with the new name are as unchanged as those with the old name.
example : (compareExtrinsics .release idOrder (some (exFromM 100 10 0 100)) (some (exFromM 100 20 0 100)) (exParams .guessWorst .time)).map
      (fun r => (r.oldV, r.newV)) =
    (compareExtrinsics .release idOrder (some (exFrom 100 10 0 100)) (some (exFrom 100 20 0 100)) (exParams .guessWorst .time)).map
      (fun r => (r.oldV, r.newV)) := by decide +kernel

end Swc
