/-
C104: what the README says about the options (`README.md:60-230`), and where it is wrong.
-/
import Mathlib.Data.Fintype.Pi
import Mathlib.Data.Fintype.BigOperators
import Verif.Props.Methods
import Verif.Props.Sort
import Verif.Props.CommandLine

namespace Swc

namespace Spec

/-- The equation with all components set to zero: what the README calls "the constant factor of the weight plus storage operations". -/
def withoutComponents : SimpleTerm → SimpleTerm
  | .value n => .value n
  | .scalar n => .scalar n
  | .var x => if x = str% "READ" ∨ x = str% "WRITE" then .var x else .scalar 0
  | .add l r => .add (withoutComponents l) (withoutComponents r)
  | .mul l r => .mul (withoutComponents l) (withoutComponents r)

end Spec

open Spec Std Term

/-! ### Base -/

theorem eval_withoutComponents {b : Build} {s : SimpleScope} {t : SimpleTerm}
    (h : ∀ x, Occurs x t → x ≠ str% "READ" → x ≠ str% "WRITE" → binding s x = some (.scalar 0)) :
    eval b (withoutComponents t) s = eval b t s := by
  induction t with
  | value => rfl
  | scalar => rfl
  | var x =>
    rw [withoutComponents]
    split
    · rfl
    · rename_i hx
      rw [not_or] at hx
      rw [eval_var, h x .here hx.1 hx.2]
  | add l r hl hr =>
    rw [withoutComponents, eval_add, eval_add, hl fun x hx => h x (.addL hx), hr fun x hx => h x (.addR hx)]
  | mul l r hl hr =>
    rw [withoutComponents, eval_mul, eval_mul, hl fun x hx => h x (.mulL hx), hr fun x hx => h x (.mulR hx)]

/-- C104: Base considers only the constant part of the equations, if no component has an annotated minimum above zero. -/
theorem C104_base (b : Build) (ho : HashOrder) (old new : Option SimpleExtrinsic) (p : CompareParams) (hm : p.method = .base)
    (hzero : ∀ x r, Annotated old new x r → r.min = 0) (r : TermChange) (h : compareExtrinsics b ho old new p = .ok r) :
    (∀ e n, old = some e → r.oldV = some n → eval b (withoutComponents e.term) r.scope = .ok n) ∧
    (∀ e n, new = some e → r.newV = some n → eval b (withoutComponents e.term) r.scope = .ok n) := by
  obtain ⟨hp, _, ho', hn'⟩ := C31_reported_point b ho old new p r h
  have key : ∀ e, (old = some e ∨ new = some e) → eval b (withoutComponents e.term) r.scope = eval b e.term r.scope := by
    intro e he
    refine eval_withoutComponents fun x hx hr hw => ?_
    obtain ⟨n, hn, hb⟩ := hp hm x ⟨⟨e, he, hx⟩, hr, hw⟩
    have : n = 0 := by
      rcases hn with ⟨_, h0⟩ | ⟨⟨q, hq, h0⟩, _⟩
      · exact h0
      · rw [← h0, hzero x q hq]
    rw [hb, this]
  exact ⟨fun e n he hv => by rw [key e (.inl he)]; exact ho' e n he hv, fun e n he hv => by rw [key e (.inr he)]; exact hn' e n he hv⟩

/-- An example call `c + k * n` with `n` in `[lo, hi]`. -/
def exFrom (c k lo hi : Nat) : SimpleExtrinsic :=
  { name := str% "f", pallet := str% "p", term := .add (.value c) (.mul (.value k) (.var (str% "n"))),
    compRanges := some [(str% "n", ⟨lo, hi⟩)] }

-- `1000 + 10 * n` with `n` from zero: only the constant part counts.
example : exValues (compareExtrinsics .release idOrder (some (exFrom 1000 10 0 50)) (some (exFrom 1500 20 0 50)) (exParams .base .time)) =
    .ok (some 1000, some 1500) := by decide +kernel
example : ∀ x r, Annotated (some (exFrom 1000 10 0 50)) (some (exFrom 1500 20 0 50)) x r → r.min = 0 := by
  intro x r h
  rw [annotated_ranges] at h
  have key : ∀ c k, annotation (exFrom c k 0 50) x = some r → r.min = 0 := by
    intro c k h
    have hb : (if x = str% "n" then some (⟨0, 50⟩ : ComponentRange) else none) = some r := h
    split at hb
    · cases hb; rfl
    · cases hb
  exact h.elim (key _ _) (key _ _)

/-- C104, against the README: for a component that starts above zero, Base considers more than the constant factor, whatever the call is compared
with: `c + k * n` with `n` from `lo` on counts as `c + k * lo` (up to overflow). -/
theorem C104_false_base (b : Build) (ho : HashOrder) (c k lo hi : Nat) (hfit : c + k * lo < 2 ^ 128) (new : SimpleExtrinsic)
    (hnew : new.compRanges = none ∨ new.compRanges = some [(str% "n", ⟨lo, hi⟩)]) (d : Dimension) (r : TermChange)
    (h : compareExtrinsics b ho (some (exFrom c k lo hi)) (some new) (exParams .base d) = .ok r) : r.oldV = some (c + k * lo) := by
  obtain ⟨hp, _, ho', _⟩ := C31_reported_point b ho _ _ _ r h
  obtain ⟨_, ⟨_, ⟨v, hv, _⟩, _⟩, _⟩ := C25_reported_is_corner b ho _ _ _ r h
  have hev := ho' _ v rfl hv
  have hocc : Occurs (str% "n") (exFrom c k lo hi).term := .addR (.mulR .here)
  obtain ⟨n, hn, hb⟩ := hp rfl (str% "n") ⟨⟨_, .inl rfl, hocc⟩, by decide, by decide⟩
  have hlo : n = lo := by
    have hall : ∀ q, Annotated (some (exFrom c k lo hi)) (some new) (str% "n") q ↔ q = ⟨lo, hi⟩ := by
      intro q
      rw [annotated_ranges]
      have e1 : annotation (exFrom c k lo hi) (str% "n") = some ⟨lo, hi⟩ := rfl
      rw [e1]
      constructor
      · rintro (h | h)
        · injection h with h; exact h.symm
        · unfold annotation at h
          rcases hnew with e | e <;> rw [e] at h
          · cases h
          · have e2 : binding [(str% "n", (⟨lo, hi⟩ : ComponentRange))] (str% "n") = some ⟨lo, hi⟩ := rfl
            simp only [e2] at h
            injection h with h; exact h.symm
      · rintro rfl; exact .inl rfl
    rcases hn with ⟨hno, _⟩ | ⟨⟨q, hq, h0⟩, _⟩
    · exact absurd rfl (mt (hall _).2 (hno ⟨lo, hi⟩))
    · rw [(hall q).1 hq] at h0; exact h0.symm
  subst hlo
  have hmul : k * n < u128Size := by unfold u128Size; omega
  have hadd : c + k * n < u128Size := hfit
  have e : eval b (exFrom c k n hi).term r.scope = .ok (c + k * n) := by
    change eval b (.add (.value c) (.mul (.value k) (.var (str% "n")))) r.scope = _
    simp only [eval_add, eval_mul, eval_value, eval_var, hb, eval_scalar, Res.bind_ok, addU128, mulU128, if_pos hmul, if_pos hadd]
  rw [e] at hev
  injection hev with hev
  rw [hv, hev]

example : exValues (compareExtrinsics .release idOrder (some (exFrom 1000 10 500 1000)) (some (exFrom 1000 20 500 1000))
    (exParams .base .time)) = .ok (some 6000, some 11000) := by decide +kernel

/-! ### Thresholds -/

theorem percent_100_150 : percent 100 150 = .fin 50 := by decide +kernel

/-- C104, against the README: "from 100 to 150 would be +50% and would be included by any threshold >=50": it is the other way round. -/
theorem C104_false_threshold (name file : Str) (c : TermChange) (hc : c.change = .changed) (hp : c.percent = percent 100 150)
    (t : ℚ) (f : FilterParams) (hf : f.change = none) (ht : f.threshold = .fin t) :
    keepChange f ⟨name, file, .changed c⟩ = true ↔ t ≤ 50 := by
  have hi : f.included c.change = true := by rw [included_iff, hf]; simp
  rw [hc] at hi
  simp only [keepChange, hc, hi, hp, percent_100_150, ht]
  have habs : F64.abs (.fin 50) = .fin 50 := by decide
  rw [habs]
  simp only [F64.lt]
  simp

/-! ### The number of points -/

/-- C104: for `n` components at most `2 ^ n` points are evaluated, never more than `2 ^ 16`; a method for which all components have two
different instances evaluates exactly `2 ^ n`. -/
theorem C104_points (ho : HashOrder) (a c : Option SimpleExtrinsic) (m : CompareMethod) (scope : SimpleScope) (hne : scope ≠ [])
    (hs : scope.Pairwise (fun p q => compare p.1 q.1 = .lt)) (scopes : List SimpleScope)
    (h : extendScopedComponents ho a c m scope = .ok scopes) :
    ∃ fs : List Str, fs.Nodup ∧ (∀ x, x ∈ fs ↔ FreeIn scope a c x) ∧ fs.length ≤ 16 ∧ scopes.length ≤ 2 ^ fs.length ∧
      ((∀ x, FreeIn scope a c x → ∀ n n', IsLow m a c x n → IsHigh m a c x n' → n ≠ n') → scopes.length = 2 ^ fs.length) := by
  obtain ⟨hn, lo, hi, hlh, hmem, hsort⟩ := extend_ok_spec hs h
  refine ⟨freesOf ho a c scope, nodup_freesOf, fun x => mem_freesOf, ?_, ?_⟩
  · by_contra hc
    exact hn (.inl (moreThan_freesOf.2 (Nat.lt_of_not_le hc)))
  generalize hfs : freesOf ho a c scope = fs
  have hmf : ∀ x, x ∈ fs ↔ FreeIn scope a c x := fun x => by rw [← hfs]; exact mem_freesOf
  have hnd : fs.Nodup := by rw [← hfs]; exact nodup_freesOf
  let f : SimpleScope → (Fin fs.length → Bool) := fun s i => decide (binding s fs[i] = some (.scalar (hi fs[i])))
  have hinj : ∀ s ∈ scopes, ∀ t ∈ scopes, f s = f t → s = t := by
    intro s hs1 t ht1 hst
    have hcs := ((hmem s).1 hs1).2
    have hct := ((hmem t).1 ht1).2
    apply BMap.ext hcs.1 hct.1
    intro x
    rw [← binding_eq_get, ← binding_eq_get]
    by_cases hx : FreeIn scope a c x
    · obtain ⟨i, hi', rfl⟩ := List.getElem_of_mem ((hmf x).2 hx)
      have := congrFun hst ⟨i, hi'⟩
      simp only [f, decide_eq_decide] at this
      change binding s fs[i] = _ ↔ binding t fs[i] = _ at this
      rcases (hcs.2 _).1 hx with e | e <;> rcases (hct.2 _).1 hx with e' | e'
      · rw [e, e']
      · exact (this.2 e').trans e'.symm
      · exact e.trans (this.1 e).symm
      · rw [e, e']
    · rw [(hcs.2 x).2 hx, (hct.2 x).2 hx]
  have hnodup : (scopes.map f).Nodup := by
    rw [List.nodup_map_iff_inj_on (sorted_nodup hsort)]
    exact hinj
  have hcard : Fintype.card (Fin fs.length → Bool) = 2 ^ fs.length := by simp
  constructor
  · have := hnodup.length_le_card
    rw [List.length_map, hcard] at this
    exact this
  · intro hdiff
    have hall : ∀ g : Fin fs.length → Bool, g ∈ scopes.map f := by
      intro g
      let v : Str → Nat := fun x => if ∃ i : Fin fs.length, fs[i] = x ∧ g i = true then hi x else lo x
      obtain ⟨s, hc, hsne⟩ := corner_exists scope hs fs hnd v v
      have hcorner : IsCorner scope (FreeIn scope a c) lo hi s := by
        refine ⟨hc.1, fun x => ⟨fun hx => ?_, fun hx => (hc.2 x).2 fun h => hx ((hmf x).1 h)⟩⟩
        have e := ((hc.2 x).1 ((hmf x).2 hx)).elim id id
        rw [e]
        simp only [v]
        split
        · exact .inr rfl
        · exact .inl rfl
      refine List.mem_map.2 ⟨s, (hmem s).2 ⟨hsne hne, hcorner⟩, ?_⟩
      funext i
      have hx : fs[i] ∈ fs := List.getElem_mem _
      have e := ((hc.2 fs[i]).1 hx).elim id id
      have hx' := (hmf _).1 hx
      cases hg : g i with
      | true =>
        have hv : v fs[i] = hi fs[i] := if_pos ⟨i, rfl, hg⟩
        exact decide_eq_true (e.trans (congrArg (fun n => some (Term.scalar n)) hv))
      | false =>
        have hv : v fs[i] = lo fs[i] := if_neg fun ⟨j, hj, hg'⟩ => by
          have : j = i := Fin.ext ((List.Nodup.getElem_inj_iff hnd).1 hj)
          rw [this, hg] at hg'
          cases hg'
        refine decide_eq_false fun h' => ?_
        rw [e, hv] at h'
        simp only [Option.some.injEq, Term.scalar.injEq] at h'
        exact hdiff _ hx' _ _ (hlh _ hx').1 (hlh _ hx').2 h'
    have h1 : (scopes.map f).toFinset = Finset.univ := by
      ext g
      simp only [List.mem_toFinset, Finset.mem_univ, iff_true]
      exact hall g
    have h2 := List.toFinset_card_of_nodup hnodup
    rw [h1, Finset.card_univ, hcard, List.length_map] at h2
    exact h2.symm

-- Two components with two instances each: four points.
example : ∃ scopes, extendScopedComponents idOrder (some exExt) none .guessWorst (baseScope .time) = .ok scopes ∧ scopes.length = 4 := ⟨_, rfl, rfl⟩

/-! ### Order -/

/-- C104, against the README ("sorted by ascending absolute value"): of two changes the one with the smaller percentage comes first, so decreases
come before increases, but the largest decrease comes first of all. -/
theorem C104_order (diff : List ExtrinsicDiff) : (sortChanges diff).Pairwise fun d e => ∀ c c', d.change = .changed c → e.change = .changed c' →
    c.change = .changed → c'.change = .changed →
    (0 ≤ rank c.percent → |rank c.percent| ≤ |rank c'.percent|) ∧ (rank c'.percent ≤ 0 → |rank c'.percent| ≤ |rank c.percent|) ∧
    ¬ (rank c'.percent < 0 ∧ 0 < rank c.percent) := by
  obtain ⟨_, ⟨f, r, e, hf, hr, hs⟩, _⟩ := C37_sort_changes diff
  have key : ∀ d ∈ f, ∀ c, d.change ≠ .changed c := by
    intro d hd c hc
    have := hf d hd
    rw [isFailed, hc] at this
    cases this
  rw [e, List.pairwise_append]
  refine ⟨?_, hs.imp ?_, fun d hd e' _ c c' hc => absurd hc (key d hd c)⟩
  · exact List.Pairwise.imp_of_mem (R := fun _ _ => True) (fun {d e'} hd _ _ c c' hc => absurd hc (key d hd c))
      (List.pairwise_of_forall fun _ _ => trivial)
  · intro d e' hle c c' hc hc' hk hk'
    obtain ⟨n, fl, ch⟩ := d
    obtain ⟨n', fl', ch'⟩ := e'
    dsimp only at hc hc'
    subst hc hc'
    rw [sortKey_changed, sortKey_changed, hk, hk', Prod.Lex.toLex_le_toLex] at hle
    have : rank c.percent ≤ rank c'.percent := by
      rcases hle with h | ⟨_, h⟩
      · exact absurd h (Nat.lt_irrefl _)
      · exact h
    refine ⟨fun h => ?_, fun h => ?_, fun h => ?_⟩
    · rw [abs_of_nonneg h, abs_of_nonneg (h.trans this)]; exact this
    · rw [abs_of_nonpos h, abs_of_nonpos (this.trans h)]; omega
    · omega

/-- C104: so the absolute values do not ascend. -/
theorem C104_false_order : ¬ ∀ diff : List ExtrinsicDiff, (sortChanges diff).Pairwise fun d e => ∀ c c', d.change = .changed c → e.change = .changed c' →
    |rank c.percent| ≤ |rank c'.percent| := by
  intro h
  have h1 := h [exEntry 'a' .changed (.fin (-5)), exEntry 'b' .changed (.fin (-50))]
  rw [show sortChanges [exEntry 'a' .changed (.fin (-5)), exEntry 'b' .changed (.fin (-50))] =
    [exEntry 'b' .changed (.fin (-50)), exEntry 'a' .changed (.fin (-5))] by decide +kernel] at h1
  have := (List.pairwise_cons.1 h1).1 _ (List.mem_cons_self ..) _ _ rfl rfl
  revert this
  decide +kernel

/-! ### The command lines of the README -/

theorem same_letters : ∀ s : Str, SameLetters s s
  | [] => .nil
  | _ :: s => .cons rfl (same_letters s)

theorem number_5 : Number (str% "5") (F64.rnd 5) := by
  have := Magnitude.whole (i := str% "5") (x := []) (by decide) (by decide) .none
  have e : ((digitsValue (str% "5") : ℕ) : ℚ) * (10 : ℚ) ^ (0 : ℤ) = 5 := by
    rw [show digitsValue (str% "5") = 5 by decide]
    norm_num
  rw [e] at this
  exact .plain this

/-- C104: `subweight compare files --old $OLD/* --new $NEW/* --method asymptotic` (`README.md:81`) compares the files that the shell puts there,
whichever they are, in time and with a threshold of 5 percent, and prints a table. -/
theorem C104_files_line (b : Build) (old new : List Str) (po pn : List Path) (ho : List.Forall₂ PathText old po) (hn : List.Forall₂ PathText new pn)
    (hdo : ∀ v ∈ old, ¬ Dashed v) (hdn : ∀ v ∈ new, ¬ Dashed v) :
    readCommandLine b (str% "compare" :: str% "files" :: (str% "--old" :: old ++ (str% "--new" :: new ++ [str% "--method", str% "asymptotic"]))) =
      some (false, .compareFiles ⟨.asymptotic, .time, false, false, false, false⟩ ⟨F64.rnd 5, none, none, none⟩ ⟨.human, false, false, none⟩ po pn) := by
  rw [C86_files]
  refine ⟨false, false, false, _, [.values (str% "old") old, .values (str% "new") new, .value (str% "method") (str% "asymptotic")], rfl, rfl, ?_, ?_⟩
  · refine .values (by decide) hdo ?_ (.values (by decide) hdn ?_ (.value (by decide) (not_dashed (by decide)) .done))
    · rintro w ⟨⟩; exact ⟨_, _, rfl⟩
    · rintro w ⟨⟩; exact ⟨_, _, rfl⟩
  · have once : ∀ n, AtMostOnce [.values (str% "old") old, .values (str% "new") new, .value (str% "method") (str% "asymptotic")] n := by
      intro n
      unfold AtMostOnce
      simp only [List.countP_cons, List.countP_nil, Given.name]
      by_cases h1 : str% "old" = n
      · subst h1; simp
      · by_cases h2 : str% "new" = n
        · subst h2; simp
        · by_cases h3 : str% "method" = n
          · subst h3; simp
          · simp [h1, h2, h3]
    have flag : ∀ n, Spec.Flag [.values (str% "old") old, .values (str% "new") new, .value (str% "method") (str% "asymptotic")] n false :=
      fun n => ⟨once n, by simp⟩
    have opt : ∀ n, n ≠ str% "method" →
        Optional [.values (str% "old") old, .values (str% "new") new, .value (str% "method") (str% "asymptotic")] n none :=
      fun n hn => ⟨once n, fun v => ⟨(fun h => nomatch h), (fun h => by simp [hn] at h)⟩⟩
    have dflt : ∀ n, n ≠ str% "method" → ∀ v,
        Given.value n v ∉ [.values (str% "old") old, .values (str% "new") new, .value (str% "method") (str% "asymptotic")] :=
      fun n hn v h => by simp [hn] at h
    refine ⟨⟨⟨once _, .inl ⟨str% "asymptotic", by simp, str% "asymptotic", by decide, ?_⟩⟩, ⟨once _, .inr ⟨dflt _ (by decide), _, rfl, str% "time", by decide, ?_⟩⟩,
      flag _, flag _, flag _, flag _⟩, ⟨⟨once _, .inr ⟨dflt _ (by decide), _, rfl, number_5⟩⟩, .inl ⟨rfl, fun vs h => ?_⟩, opt _ (by decide), opt _ (by decide)⟩,
      ⟨⟨once _, .inr ⟨dflt _ (by decide), _, rfl, str% "human", by decide, ?_⟩⟩, flag _, flag _, opt _ (by decide)⟩, ⟨⟨old, by simp⟩, ?_⟩, ⟨⟨new, by simp⟩, ?_⟩,
      flag _, rfl⟩
    · exact same_letters _
    · exact same_letters _
    · simp at h
    · exact same_letters _
    · simpa [listed] using ho
    · simpa [listed] using hn

-- The line meets the hypotheses with the files of the README.
example : ∃ po pn, readCommandLine .debug [str% "compare", str% "files", str% "--old", str% "../old/a.rs", str% "../old/b.rs", str% "--new", str% "../new/a.rs",
    str% "--method", str% "asymptotic"] = some (false, .compareFiles ⟨.asymptotic, .time, false, false, false, false⟩ ⟨F64.rnd 5, none, none, none⟩
      ⟨.human, false, false, none⟩ po pn) :=
  ⟨_, _, C104_files_line .debug [str% "../old/a.rs", str% "../old/b.rs"] [str% "../new/a.rs"] _ _
    (.cons ((readPath_iff _ _).1 rfl) (.cons ((readPath_iff _ _).1 rfl) .nil)) (.cons ((readPath_iff _ _).1 rfl) .nil)
    (fun v hv => by simp only [List.mem_cons, List.not_mem_nil, or_false] at hv; rcases hv with rfl | rfl <;> exact not_dashed (by decide))
    (fun v hv => by simp only [List.mem_cons, List.not_mem_nil, or_false] at hv; rcases hv with rfl; exact not_dashed (by decide))⟩

-- `README.md:86`, `:126` and `:67`, and `docker-compose.yml:15` are accepted.
example : accepts .release [str% "compare", str% "files", str% "--old", str% "../polkadot/runtime/kusama/src/weights/a.rs", str% "--new",
    str% "../polkadot/runtime/polkadot/src/weights/a.rs", str% "--method", str% "asymptotic", str% "--ignore-errors", str% "--change", str% "changed",
    str% "unchanged", str% "--unit", str% "time", str% "--threshold", str% "10"] = true := by decide +kernel
example : accepts .release [str% "--verbose", str% "compare", str% "commits", str% "HEAD", str% "HEAD~100", str% "--threshold", str% "10", str% "--method",
    str% "asymptotic", str% "--path-pattern", str% "runtime/*/src/weights/**/*.rs,bridges/modules/*/src/weights.rs"] = true := by decide +kernel
example : (readServerLine [str% "--root", str% "../", str% "--repos", str% "polkadot", str% "substrate", str% "cumulus"]).map (fun c => (c.root, c.repos, c.port)) =
    some ([.parent], [str% "polkadot", str% "substrate", str% "cumulus"], 8080) := by decide +kernel
example : (readServerLine [str% "--root", str% "/repos/", str% "--repos", str% "substrate", str% "polkadot", str% "cumulus", str% "chain", str% "--endpoint",
    str% "0.0.0.0", str% "--cert", str% "/certs/cert.pem", str% "--key", str% "/certs/key.pem"]).map (fun c => (c.root, c.endpoint, c.cert)) =
    some ([.root, .normal (str% "repos")], str% "0.0.0.0", some (str% "/certs/cert.pem")) := by decide +kernel

end Swc
