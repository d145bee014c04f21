/-
C90: all numbers in reports are `u128` numbers, every comparison that succeeds has a page (release builds), and what keeps the server alive.
-/
import Verif.Spec.Alive
import Verif.Props.Site
import Verif.Props.PageTable
import Verif.Props.Language

namespace Swc

open Spec Term

/-! ### Numbers -/

theorem parseUInt_lt {bound n : Nat} {s : Str} (h : parseUInt bound s = some n) : n < bound := by
  unfold parseUInt at h
  dsimp only at h
  split at h
  · cases h
  · split at h
    · split at h
      · cases h; assumption
      · cases h
    · cases h

theorem litToValue_lt {l : Lit} {n : Nat} (h : litToValue l = .ok n) : n < 2 ^ 128 := by
  cases l with
  | other => cases h
  | int d =>
    rw [litToValue] at h
    cases hp : parseUInt u128Size d with
    | none => rw [hp] at h; cases h
    | some m => rw [hp] at h; cases h; exact parseUInt_lt hp

/-- `LitsFit`, by recursion. -/
def SFit : SimpleTerm → Prop
  | .value n => n < 2 ^ 128
  | .scalar n => n < 2 ^ 128
  | .var _ => True
  | .add l r => SFit l ∧ SFit r
  | .mul l r => SFit l ∧ SFit r

/-- `NumbersFit`, by recursion. -/
def CFit : ChromaticTerm → Prop
  | .value w => w.time < 2 ^ 128 ∧ w.proof < 2 ^ 128
  | .scalar n => n < 2 ^ 128
  | .var _ => True
  | .add l r => CFit l ∧ CFit r
  | .mul l r => CFit l ∧ CFit r

theorem cfit_numbers {t : ChromaticTerm} (h : CFit t) : NumbersFit t := by
  induction t with
  | value w => exact ⟨fun v hv => (by cases hv; exact h), fun n hn => (by cases hn)⟩
  | scalar n => exact ⟨fun v hv => (by cases hv), fun n hn => (by cases hn; exact h)⟩
  | var x => exact ⟨fun v hv => (by cases hv), fun n hn => (by cases hn)⟩
  | add l r hl hr =>
    refine ⟨fun w hw => ?_, fun n hn => ?_⟩
    · cases hw with
      | addL hw => exact (hl h.1).1 w hw
      | addR hw => exact (hr h.2).1 w hw
    · cases hn with
      | addL hw => exact (hl h.1).2 n hw
      | addR hw => exact (hr h.2).2 n hw
  | mul l r hl hr =>
    refine ⟨fun w hw => ?_, fun n hn => ?_⟩
    · cases hw with
      | mulL hw => exact (hl h.1).1 w hw
      | mulR hw => exact (hr h.2).1 w hw
    · cases hn with
      | mulL hw => exact (hl h.1).2 n hw
      | mulR hw => exact (hr h.2).2 n hw

theorem project_fits {t : ChromaticTerm} (h : NumbersFit t) (d : Dimension) : LitsFit (project d t) := by
  have key : ∀ s, Sub s (project d t) → ∃ s', Sub s' t ∧ s = project d s' := by
    clear h
    induction t with
    | value w => intro s hs; exact ⟨.value w, .refl, by cases hs; rfl⟩
    | scalar n => intro s hs; exact ⟨.scalar n, .refl, by cases hs; rfl⟩
    | var x => intro s hs; exact ⟨.var x, .refl, by cases hs; rfl⟩
    | add l r hl hr =>
      intro s hs
      cases hs with
      | refl => exact ⟨.add l r, .refl, rfl⟩
      | addL hs => obtain ⟨s', h1, h2⟩ := hl s hs; exact ⟨s', .addL h1, h2⟩
      | addR hs => obtain ⟨s', h1, h2⟩ := hr s hs; exact ⟨s', .addR h1, h2⟩
    | mul l r hl hr =>
      intro s hs
      cases hs with
      | refl => exact ⟨.mul l r, .refl, rfl⟩
      | mulL hs => obtain ⟨s', h1, h2⟩ := hl s hs; exact ⟨s', .mulL h1, h2⟩
      | mulR hs => obtain ⟨s', h1, h2⟩ := hr s hs; exact ⟨s', .mulR h1, h2⟩
  rintro n (hn | hn)
  · obtain ⟨s, hs, e⟩ := key _ hn
    cases s with
    | value w =>
      have := h.1 w hs
      cases d <;> cases e
      · exact this.1
      · exact this.2
    | _ => cases e
  · obtain ⟨s, hs, e⟩ := key _ hn
    cases s with
    | scalar m => cases e; exact h.2 _ hs
    | _ => cases e

theorem parseScalar_fits (e : Expr) : ∀ t, parseScalar e = .ok t → SFit t := by
  fun_induction parseScalar e with
  | case1 e ih => exact ih
  | case2 e ih => exact ih
  | case3 l =>
    intro t h
    obtain ⟨n, h1, h2⟩ := bind_eq_ok h
    cases h2
    exact litToValue_lt h1
  | case4 => intro t h; cases h; trivial
  | case5 r args tr _ ih => exact ih
  | case7 r args tr _ ih =>
    intro t h
    obtain ⟨_, -, h⟩ := bind_eq_ok h
    split at h
    · obtain ⟨a, h1, h2⟩ := bind_eq_ok h
      cases h2
      exact ⟨ih _ h1, trivial⟩
    · cases h
  | case8 r args tr _ _ ih =>
    intro t h
    obtain ⟨_, -, h⟩ := bind_eq_ok h
    split at h
    · obtain ⟨a, h1, h2⟩ := bind_eq_ok h
      cases h2
      exact ⟨ih _ h1, trivial⟩
    · cases h
  | case9 r args tr _ _ _ ih2 ih =>
    intro t h
    obtain ⟨l, hl, h⟩ := bind_eq_ok h
    split at h
    · obtain ⟨a, h1, h2⟩ := bind_eq_ok h
      cases h2
      exact ⟨ih2 _ hl, ih _ h1⟩
    · cases h
  | case10 r args tr _ _ _ _ ih2 ih =>
    intro t h
    obtain ⟨l, hl, h⟩ := bind_eq_ok h
    split at h
    · obtain ⟨a, h1, h2⟩ := bind_eq_ok h
      cases h2
      exact ⟨ih2 _ hl, ih _ h1⟩
    · cases h
  | case11 r args tr _ _ _ _ _ ih => exact ih
  | case13 f args tr ih =>
    intro t h
    obtain ⟨_, -, h⟩ := bind_eq_ok h
    split at h
    · split at h
      · exact ih _ h
      · cases h
    · split at h
      · split at h
        · cases h; show (0 : Nat) < 2 ^ 128; decide
        · cases h
      · cases h
  | _ => intro t h; cases h

theorem intoChromatic_fits {t : SimpleTerm} (h : SFit t) (d : Dimension) : CFit (intoChromatic d t) := by
  have z : (0 : Nat) < 2 ^ 128 := by decide
  induction t with
  | value n => cases d <;> simp only [intoChromatic, scalarIntoTerm, CFit] <;> exact ⟨by first | exact h | exact z, by first | exact h | exact z⟩
  | scalar n => cases d <;> simp only [intoChromatic, scalarIntoTerm, CFit] <;> exact ⟨by first | exact h | exact z, by first | exact h | exact z⟩
  | var x => trivial
  | add l r hl hr => exact ⟨hl h.1, hr h.2⟩
  | mul l r hl hr => exact ⟨hl h.1, hr h.2⟩

theorem spliceAdd_fits (a c : ChromaticTerm) (h1 : CFit a) (h2 : CFit c) : CFit (spliceAdd a c) := by
  fun_induction spliceAdd a c with
  | case1 a b c d ih1 ih2 => exact ⟨ih1 h1.1 h2.1, ih2 h1.2 h2.2⟩
  | case2 x y h => exact ⟨h2.1, h1.2⟩
  | case3 x y h h' => exact ⟨h1.1, h2.2⟩
  | case4 x y h h' => exact ⟨h1, h2⟩
  | case5 x y => exact ⟨h1, h2⟩

theorem parseRw_fits {e : Expr} {t : ChromaticTerm} (h : parseRw e = .ok t) : CFit t := by
  unfold parseRw at h
  split at h
  · obtain ⟨n, h1, h2⟩ := bind_eq_ok h; cases h2; exact litToValue_lt h1
  · obtain ⟨n, h1, h2⟩ := bind_eq_ok h; cases h2; exact intoChromatic_fits (parseScalar_fits _ _ h1) _

theorem parseCall_fits {f : Expr} {args : List Expr} {tr : Bool} {t : ChromaticTerm} (h : parseCall f args tr = .ok t) : CFit t := by
  unfold parseCall at h
  obtain ⟨_, -, h⟩ := bind_eq_ok h
  split at h
  · split at h
    · obtain ⟨n, h1, h2⟩ := bind_eq_ok h; cases h2; exact intoChromatic_fits (parseScalar_fits _ _ h1) _
    · cases h
  · split at h
    · split at h
      · obtain ⟨n, h1, h2⟩ := bind_eq_ok h; cases h2; exact intoChromatic_fits (parseScalar_fits _ _ h1) _
      · cases h
    · split at h
      · split at h
        · obtain ⟨n, h1, h⟩ := bind_eq_ok h
          obtain ⟨m, h2, h⟩ := bind_eq_ok h
          cases h
          exact spliceAdd_fits _ _ (intoChromatic_fits (parseScalar_fits _ _ h1) _) (intoChromatic_fits (parseScalar_fits _ _ h2) _)
        · cases h
      · split at h
        · split at h
          · cases h; exact ⟨by decide, by decide⟩
          · cases h
        · cases h

theorem parseExpression_fits (e : Expr) : ∀ t, parseExpression e = .ok t → CFit t := by
  fun_induction parseExpression e with
  | case1 e ih => exact ih
  | case2 e ih => exact ih
  | case3 => intro t h; cases h; trivial
  | case4 f args tr => exact fun t h => parseCall_fits h
  | case5 r args tr =>
    intro t h
    obtain ⟨_, -, h⟩ := bind_eq_ok h
    split at h
    · obtain ⟨a, h1, h2⟩ := bind_eq_ok h; cases h2; exact ⟨parseRw_fits h1, trivial⟩
    · cases h
  | case6 r args tr =>
    intro t h
    obtain ⟨_, -, h⟩ := bind_eq_ok h
    split at h
    · obtain ⟨a, h1, h2⟩ := bind_eq_ok h; cases h2; exact ⟨parseRw_fits h1, trivial⟩
    · cases h
  | case7 r args tr _ _ ih2 ih =>
    intro t h
    obtain ⟨l, hl, h⟩ := bind_eq_ok h
    split at h
    · obtain ⟨a, h1, h2⟩ := bind_eq_ok h
      cases h2
      exact ⟨ih2 _ hl, ih _ h1⟩
    · cases h
  | case8 r args tr _ _ _ ih2 ih =>
    intro t h
    obtain ⟨l, hl, h⟩ := bind_eq_ok h
    split at h
    · obtain ⟨a, h1, h2⟩ := bind_eq_ok h
      cases h2
      exact ⟨ih2 _ hl, ih _ h1⟩
    · cases h
  | case9 r args tr _ _ _ _ ih => exact ih
  | _ => intro t h; cases h

theorem parseBody_fits {e : Expr} {t : ChromaticTerm} (h : parseBody e = .ok t) : CFit t := by
  unfold parseBody at h
  split at h
  · obtain ⟨n, h1, h2⟩ := bind_eq_ok h; cases h2; exact intoChromatic_fits (parseScalar_fits _ _ h1) _
  · exact parseExpression_fits _ _ h

theorem mem_insert {T : Type} {k k' : Str} {v v' : T} {m : BMap T} (h : (k', v') ∈ BMap.insert k v m) : (k', v') = (k, v) ∨ (k', v') ∈ m := by
  induction m with
  | nil => simpa [BMap.insert] using h
  | cons p m ih =>
    obtain ⟨a, w⟩ := p
    rw [BMap.insert] at h
    cases hc : compare k a with
    | lt => rw [hc] at h; simpa using h
    | eq =>
      rw [hc] at h
      rcases List.mem_cons.1 h with h | h
      · exact .inl h
      · exact .inr (List.mem_cons_of_mem _ h)
    | gt =>
      rw [hc] at h
      rcases List.mem_cons.1 h with h | h
      · exact .inr (h ▸ List.mem_cons_self)
      · rcases ih h with h | h
        · exact .inl h
        · exact .inr (List.mem_cons_of_mem _ h)

theorem collectRanges_lt {cc : CharClass} {attrs : List Attr} {acc m : BMap ComponentRange} (h : collectRanges cc acc attrs = .ok m)
    (ha : ∀ x r, (x, r) ∈ acc → r.min < 2 ^ 32 ∧ r.max < 2 ^ 32) : ∀ x r, (x, r) ∈ m → r.min < 2 ^ 32 ∧ r.max < 2 ^ 32 := by
  induction attrs generalizing acc with
  | nil => cases h; exact ha
  | cons a l ih =>
    rw [collectRanges] at h
    obtain ⟨o, ho, h⟩ := bind_eq_ok h
    cases o with
    | none => exact ih h ha
    | some p =>
      obtain ⟨name, r⟩ := p
      refine ih h fun x r' hx => ?_
      rcases mem_insert hx with hx | hx
      · cases hx
        unfold parseComponentAttr at ho
        split at ho
        · split at ho
          · cases ho
          · split at ho
            · cases ho
            · obtain ⟨lo, h1, ho⟩ := bind_eq_ok ho
              obtain ⟨hi, h2, ho⟩ := bind_eq_ok ho
              split at ho
              · cases ho
              · cases ho; exact ⟨parseBound_lt h1, parseBound_lt h2⟩
        · cases ho
      · exact ha x r' hx

/-- C90: the numbers that are read from a file are `u128` numbers, the bounds of ranges `u32` numbers. -/
theorem C90_parsed {syn : SynParser} {cc : CharClass} {pallet content : Str} {exts : List ChromaticExtrinsic}
    (h : parseContent syn cc pallet content = .ok exts) : ∀ e ∈ exts, NumbersFit e.term ∧ BoundsFit e.compRanges := by
  obtain ⟨items, pre, i, post, -, -, ⟨ty, its, -, -, -, hf⟩, -⟩ := C45_content h
  intro e he
  obtain ⟨f, -, -, -, -, ⟨x, -, hx⟩, hr⟩ := forall₂_mem_right hf he
  refine ⟨cfit_numbers (parseBody_fits hx), fun l x r hl hm => ?_⟩
  unfold parseComponentAttrs at hr
  obtain ⟨m, hm', hr⟩ := bind_eq_ok hr
  rw [hl] at hr
  split at hr
  · cases hr
  · cases hr; exact collectRanges_lt hm' (by simp) x r hm

/-- The numbers of both versions of a call fit. -/
def SidesFit (l : List ChromaticExtrinsic) : Prop := ∀ e ∈ l, NumbersFit e.term ∧ BoundsFit e.compRanges

theorem mem_of_binding {T : Type} {m : BMap T} {x : Str} {v : T} (h : binding m x = some v) : (x, v) ∈ m := by
  induction m with
  | nil => cases h
  | cons p m ih =>
    obtain ⟨k, w⟩ := p
    rw [binding] at h
    split at h
    · rename_i e; cases h; rw [e]; exact List.mem_cons_self
    · exact List.mem_cons_of_mem _ (ih h)

theorem firstOf_mem {l : List ChromaticExtrinsic} {p e : Str} {x : ChromaticExtrinsic} (h : FirstOf l p e (some x)) : x ∈ l := by
  obtain ⟨-, l1, l2, rfl, -⟩ := h
  simp

/-- C90: if all numbers that a comparison is given are `u128` numbers, so are all weights in its report, in both builds; and the percentages of what
has changed are computed from them. -/
theorem C90_reported {b : Build} {ho : HashOrder} {rx : RegexEngine} {olds news : List ChromaticExtrinsic} {params : CompareParams}
    {filter : FilterParams} {diff : List ExtrinsicDiff} (h1 : SidesFit olds) (h2 : SidesFit news)
    (h : compareFiles b ho rx olds news params filter = .ok diff) :
    ∀ e ∈ diff, U128Weights e ∧ ∀ c, numbers e.change = some c → c.change = .changed → Computed c := by
  intro d hd
  obtain ⟨o, n, ho', hn', he⟩ := C33_right_pair b ho rx olds news params filter diff h d hd
  have hx : ∀ x, (o = some x ∨ n = some x) → NumbersFit x.term ∧ BoundsFit x.compRanges := by
    rintro x (rfl | rfl)
    · exact h1 x (firstOf_mem ho')
    · exact h2 x (firstOf_mem hn')
  have main : ∀ r, compareExtrinsics b ho (o.map (inDim params.unit)) (n.map (inDim params.unit)) params = .ok r →
      ((∀ v, r.oldV = some v → v < 2 ^ 128) ∧ (∀ v, r.newV = some v → v < 2 ^ 128)) ∧ (r.change = .changed → Computed r) := by
    intro r hr
    obtain ⟨hc, ⟨-, hv1, hv2, -⟩, -⟩ := C25_reported_is_corner _ _ _ _ _ _ hr
    obtain ⟨c1, c2⟩ := corner_lt hc (by
      rintro x rg ⟨e, m, he, hm, hb⟩
      have : ∃ y, (o = some y ∨ n = some y) ∧ inDim params.unit y = e := by
        rcases he with he | he
        · obtain ⟨y, hy, e⟩ := Option.map_eq_some_iff.1 he; exact ⟨y, .inl hy, e⟩
        · obtain ⟨y, hy, e⟩ := Option.map_eq_some_iff.1 he; exact ⟨y, .inr hy, e⟩
      obtain ⟨y, hy, rfl⟩ := this
      exact (hx y hy).2 m x rg hm (mem_of_binding hb))
    have side : ∀ (z : Option ChromaticExtrinsic) (w : Option Nat), (∀ x, z = some x → NumbersFit x.term) →
        ValueAt b (z.map (inDim params.unit)) r.scope w → ∀ v, w = some v → v < 2 ^ 128 := by
      intro z w hz hw v hv
      cases z with
      | none => rw [Option.map_none] at hw; cases hw; cases hv
      | some x =>
        obtain ⟨m, hm, he⟩ := hw
        rw [hv] at hm
        cases hm
        exact eval_lt c1 c2 (project_fits (hz x rfl) params.unit) he
    have s1 := side o _ (fun x e => (hx x (.inl e)).1) hv1
    have s2 := side n _ (fun x e => (hx x (.inr e)).1) hv2
    refine ⟨⟨s1, s2⟩, fun hch => ?_⟩
    obtain ⟨a, c, e1, e2, -⟩ := (C27_kinds _ _ _ _ _ _ hr).2.2.2.1 hch
    rw [e1, e2] at hr
    exact C57_reports_are_computed b ho a c params r hr s1 s2
  rcases he with ⟨m, -, hc⟩ | ⟨r, hr, hc⟩
  · refine ⟨fun c hcn => ?_, fun c hcn => ?_⟩ <;> · rw [hc] at hcn; cases hcn
  · have hn : numbers d.change = some r := by
      rcases hc with ⟨-, hc⟩ | ⟨-, m, hc⟩ <;> rw [hc] <;> rfl
    refine ⟨fun c hcn => ?_, fun c hcn => ?_⟩
    · rw [hn] at hcn; cases hcn; exact (main r hr).1
    · rw [hn] at hcn; cases hcn; exact (main r hr).2

/-! ### Programs that end well -/

/-- Whatever the world answers, the program ends with a result in `P`, or with an error, or (unless `calm`) by panicking. -/
def EndsWell {α : Type} (W : World) (calm : Prop) (P : α → Prop) : Prog α → Prop
  | .done r => (calm → r ≠ .panic) ∧ ∀ a, r = .ok a → P a
  | .git args k => ∀ s, EndsWell W calm P (k (W.git s args).1)
  | .glob p k => ∀ s, EndsWell W calm P (k (W.glob s p))
  | .read f k => ∀ s, EndsWell W calm P (k (W.fs s f))

variable {α β : Type} {W : World} {calm : Prop}

theorem endsWell_bind {P : α → Prop} {Q : β → Prop} {p : Prog α} {f : α → Prog β} (hp : EndsWell W calm P p)
    (hf : ∀ a, P a → EndsWell W calm Q (f a)) : EndsWell W calm Q (p >>= f) := by
  show EndsWell W calm Q (Prog.andThen p f)
  induction p with
  | done r =>
    cases r with
    | ok a => exact hf a (hp.2 a rfl)
    | err m => exact ⟨fun _ h => (nomatch h), fun a h => (nomatch h)⟩
    | panic => exact ⟨fun h => absurd rfl (hp.1 h), fun a h => (nomatch h)⟩
    | diverge => exact ⟨fun _ h => (nomatch h), fun a h => (nomatch h)⟩
  | git args k ih => exact fun s => ih _ (hp s)
  | glob p k ih => exact fun s => ih _ (hp s)
  | read p k ih => exact fun s => ih _ (hp s)

theorem endsWell_mapErr {P : α → Prop} {f : Str → Str} {p : Prog α} (hp : EndsWell W calm P p) : EndsWell W calm P (p.mapErr f) := by
  induction p with
  | done r => cases r with
    | err m => exact ⟨fun _ h => (nomatch h), fun _ h => (nomatch h)⟩
    | _ => exact hp
  | git args k ih => exact fun s => ih _ (hp s)
  | glob g k ih => exact fun s => ih _ (hp s)
  | read p k ih => exact fun s => ih _ (hp s)

theorem endsWell_pure {P : α → Prop} {a : α} (h : P a) : EndsWell W calm P (pure a) :=
  ⟨fun _ h => (nomatch h), fun _ e => (by cases e; exact h)⟩

theorem endsWell_step {P : α → Prop} {p p' : Prog α} {s s' : W.State} (h : EndsWell W calm P p) (hs : p.step W s = some (p', s')) :
    EndsWell W calm P p' := by
  cases p with
  | done r => cases hs
  | git args k => cases hs; exact h s
  | glob g k => cases hs; exact h s
  | read f k => cases hs; exact h s

theorem endsWell_run {P : α → Prop} {p : Prog α} (h : EndsWell W calm P p) (s : W.State) :
    (calm → (p.run W s).1 ≠ .panic) ∧ ∀ a, (p.run W s).1 = .ok a → P a := by
  induction p generalizing s with
  | done r => exact h
  | git args k ih => exact ih _ (h s) _
  | glob g k ih => exact ih _ (h s) _
  | read f k ih => exact ih _ (h s) _

theorem endsWell_success (what : Str) (out : GitOut) : EndsWell W calm (fun _ => True) (.done (expectSuccess what out)) := by
  refine ⟨fun _ => ?_, fun _ _ => trivial⟩
  cases out with
  | spawnFailed e => exact fun h => nomatch h
  | exited ok a c d => cases ok <;> exact fun h => nomatch h

theorem endsWell_git (args : List Str) : EndsWell W calm (fun _ => True) (gitP args) := fun _ => ⟨fun _ h => (nomatch h), fun _ _ => trivial⟩

theorem endsWell_pull (r : Str) : EndsWell W calm (fun _ => True) (gitPullP r) :=
  endsWell_bind (endsWell_git _) fun _ _ => endsWell_success _ _

theorem endsWell_reset (r : Str) (pull : Bool) : EndsWell W calm (fun _ => True) (gitResetP r pull) := by
  have rest : EndsWell W calm (fun _ => True) (do
      let out ← gitP [str% "reset", str% "--hard", str% "origin/" ++ r]
      match out with
      | .exited true _ _ _ => pure ()
      | _ => do
        let out ← gitP [str% "reset", str% "--hard", r]
        .done (expectSuccess (str% "Failed to reset branch") out)) := by
    refine endsWell_bind (endsWell_git _) fun o _ => ?_
    split
    · exact endsWell_pure trivial
    · exact endsWell_bind (endsWell_git _) fun _ _ => endsWell_success _ _
  cases pull
  · exact rest
  · exact endsWell_bind (endsWell_pull r) fun _ _ => rest

theorem endsWell_checkout (r : Str) (pull force : Bool) : EndsWell W calm (fun _ => True) (gitCheckoutP r pull force) := by
  cases force
  · cases pull
    · exact endsWell_bind (endsWell_git _) fun _ _ => endsWell_success _ _
    · exact endsWell_bind (endsWell_pull r) fun _ _ => endsWell_bind (endsWell_git _) fun _ _ => endsWell_success _ _
  · exact endsWell_reset r pull

theorem collectPaths_calm (l : List (Except Str Path)) : collectPaths l ≠ .panic := by
  induction l with
  | nil => exact fun h => nomatch h
  | cons x l ih =>
    cases x with
    | error e => exact fun h => nomatch h
    | ok p =>
      rw [collectPaths]
      generalize collectPaths l = r at ih
      cases r with
      | panic => exact absurd rfl ih
      | _ => exact fun h => nomatch h

theorem endsWell_list (base : Path) (pattern : Str) (max : Nat) : EndsWell W calm (fun _ => True) (listFilesP base pattern max) := by
  have loop : ∀ (rs : List Str) (paths : List Path), EndsWell W calm (fun _ => True) (listLoopP base max rs paths) := by
    intro rs
    induction rs with
    | nil => exact fun _ => endsWell_pure trivial
    | cons r rs ih =>
      intro paths
      rw [listLoopP]
      refine endsWell_bind (P := fun _ => True) ?_ fun files _ => ?_
      · intro s
        generalize W.glob s _ = g
        cases g with
        | error e => exact ⟨fun _ h => (nomatch h), fun _ _ => trivial⟩
        | ok l => exact ⟨fun _ => collectPaths_calm l, fun _ _ => trivial⟩
      · dsimp only
        split
        · exact ⟨fun _ h => (nomatch h), fun _ _ => trivial⟩
        · exact ih _
  exact endsWell_bind (loop _ _) fun _ _ => endsWell_pure trivial

/-- C49, once more: only functions that are taken for weights matter. -/
theorem parseContent_benign {syn : SynParser} (cc : CharClass) (pallet : Str) {content : Str} (h : Benign syn content) :
    parseContent syn cc pallet content ≠ .panic := by
  unfold parseContent
  cases hs : syn content with
  | error e => exact fun h => nomatch h
  | ok items =>
    dsimp only
    have h' : ∀ ty its f, .impl ty its ∈ items → Eligible ty → f ∈ functions its → ReturnsWeight f → ¬ Hostile f := fun ty its f => h items ty its f hs
    clear h hs
    induction items with
    | nil => exact fun h => nomatch h
    | cons i l ih =>
      have hi : handleItem cc pallet i ≠ .panic := by
        cases i with
        | impl ty its =>
          rw [handleItem]
          cases ht : checkSelfTy ty with
          | ok u =>
            have hm : handleMethods cc pallet its ≠ .panic := by
              have h2 := fun f => h' ty its f List.mem_cons_self ((C46_eligible ty).1 ht)
              clear h' ih ht
              induction its with
              | nil => exact fun h => nomatch h
              | cons i its ih =>
                cases i with
                | other => rw [handleMethods]; exact ih h2
                | fn f =>
                  rw [handleMethods]
                  have hf : handleMethod cc f ≠ .panic := by
                    by_cases hw : ReturnsWeight f
                    · rcases handleMethod_clean cc (h2 f (by simp [functions]) hw) with ⟨x, e⟩ | ⟨m, e⟩ <;> rw [e] <;> exact fun h => nomatch h
                    · have : ∃ m, checkOutput f.name f.output = .err m := by
                        rcases checkOutput_clean f.name f.output with ⟨x, e⟩ | e
                        · exact absurd ((checkOutput_iff f).1 e) hw
                        · exact e
                      obtain ⟨m, e⟩ := this
                      rw [handleMethod, e]
                      exact fun h => nomatch h
                  have hr := ih fun g hg => h2 g (by simp [functions, hg])
                  generalize handleMethod cc f = x at hf
                  generalize handleMethods cc pallet its = y at hr
                  cases x with
                  | panic => exact absurd rfl hf
                  | ok a => cases y with
                    | panic => exact absurd rfl hr
                    | _ => exact fun h => nomatch h
                  | _ => exact fun h => nomatch h
            generalize handleMethods cc pallet its = y at hm
            cases y with
            | panic => exact absurd rfl hm
            | ok ws =>
              show (if ws.isEmpty then _ else _) ≠ _
              split <;> exact fun h => nomatch h
            | _ => exact fun h => nomatch h
          | err m => exact fun h => nomatch h
          | panic => rcases checkSelfTy_clean ty with ⟨x, e⟩ | ⟨m, e⟩ <;> rw [e] at ht <;> cases ht
          | diverge => exact fun h => nomatch h
        | _ => exact fun h => nomatch h
      rw [firstOk]
      generalize handleItem cc pallet i = x at hi
      cases x with
      | err m => exact ih fun ty its f hf => h' ty its f (List.mem_cons_of_mem _ hf)
      | ok r => exact fun h => nomatch h
      | panic => exact absurd rfl hi
      | diverge => exact fun h => nomatch h

theorem parseContent_calm {syn : SynParser} (cc : CharClass) (pallet : Str) {content : Str} (h : Harmless syn content) :
    parseContent syn cc pallet content ≠ .panic := by
  exact fun hp => h cc ((C108_file_fatal syn cc pallet content).1 hp)

/-- C90: benign files are harmless. -/
theorem C90_benign {syn : SynParser} {content : Str} (h : Benign syn content) : Harmless syn content :=
  fun cc hf => parseContent_benign cc [] h ((C108_file_fatal syn cc [] content).2 hf)

/-- C90: generated weight files are harmless. -/
theorem C90_generated {content : Str} (h : Generated content) : Harmless rustSyn content := by
  obtain ⟨style, fns, h1, h2, h3⟩ := h
  intro cc hf
  obtain ⟨exts, he, -⟩ := C79_weight_file cc [] h1 h2 h3
  have := (C108_file_fatal rustSyn cc [] content).2 hf
  rw [he] at this
  cases this

theorem parseFile_well {env : Env} {repo file : Path} {c : Except Str Str} (hb : calm → ∀ t, c = .ok t → Harmless env.syn t) :
    (calm → parseFileInRepo env (fun _ => c) repo file ≠ .panic) ∧ ∀ l, parseFileInRepo env (fun _ => c) repo file = .ok l → SidesFit l := by
  unfold parseFileInRepo readFile
  cases c with
  | error e => exact ⟨fun _ h => (nomatch h), fun l h => (nomatch h)⟩
  | ok t =>
    show (calm → withFile file (parseContent env.syn env.cc (Path.display ((Path.stripPrefix repo file).getD file)) t) ≠ .panic) ∧ ∀ l, withFile file (parseContent env.syn env.cc (Path.display ((Path.stripPrefix repo file).getD file)) t) = .ok l → SidesFit l
    generalize Path.display ((Path.stripPrefix repo file).getD file) = name
    have h1 := fun hc => parseContent_calm env.cc name (hb hc t rfl)
    have h2 := fun l (hl : parseContent env.syn env.cc name t = .ok l) => C90_parsed hl
    generalize parseContent env.syn env.cc name t = r at h1 h2
    cases r with
    | panic => exact ⟨fun hc => absurd rfl (h1 hc), fun l h => (nomatch h)⟩
    | ok x => exact ⟨fun _ h => (nomatch h), fun l h => (by cases h; exact h2 _ rfl)⟩
    | err m => exact ⟨fun _ h => (nomatch h), fun l h => (nomatch h)⟩
    | diverge => exact ⟨fun _ h => (nomatch h), fun l h => (nomatch h)⟩

theorem sidesFit_append {a c : List ChromaticExtrinsic} (h1 : SidesFit a) (h2 : SidesFit c) : SidesFit (a ++ c) := by
  intro e he
  rcases List.mem_append.1 he with he | he
  · exact h1 e he
  · exact h2 e he

theorem sidesFit_nil : SidesFit [] := fun _ h => nomatch h

theorem endsWell_parse {env : Env} (hb : calm → ∀ s p c, W.fs s p = .ok c → Harmless env.syn c) (repo : Path) (ignore : Bool) (l : List Path) :
    EndsWell W calm SidesFit (parseListedP env repo ignore l) := by
  have one : ∀ p s, (calm → parseFileInRepo env (fun _ => W.fs s p) repo p ≠ .panic) ∧
      ∀ l, parseFileInRepo env (fun _ => W.fs s p) repo p = .ok l → SidesFit l := fun p s => parseFile_well fun hc t ht => hb hc s p t ht
  unfold parseListedP
  split
  · induction l with
    | nil => exact endsWell_pure sidesFit_nil
    | cons p l ih =>
      rw [tryParseAllP]
      refine endsWell_bind (P := SidesFit) ?_ fun a ha => endsWell_bind ih fun r hr => endsWell_pure (sidesFit_append ha hr)
      intro s
      have := one p s
      show (calm → (match parseFileInRepo env (fun _ => W.fs s p) repo p with | .err _ => Res.ok [] | r => r) ≠ .panic) ∧
        ∀ l, (match parseFileInRepo env (fun _ => W.fs s p) repo p with | .err _ => Res.ok [] | r => r) = .ok l → SidesFit l
      generalize parseFileInRepo env (fun _ => W.fs s p) repo p = r at this ⊢
      cases r with
      | err m => exact ⟨fun _ h => (nomatch h), fun a h => (by cases h; exact sidesFit_nil)⟩
      | _ => exact this
  · induction l with
    | nil => exact endsWell_pure sidesFit_nil
    | cons p l ih =>
      rw [parseAllP]
      exact endsWell_bind (P := SidesFit) (fun s => one p s) fun a ha => endsWell_bind ih fun r hr => endsWell_pure (sidesFit_append ha hr)

/-- The weights of a report are `u128` numbers and its percentages computed from them. -/
def FitReport (diff : List ExtrinsicDiff) : Prop := ∀ e ∈ diff, U128Weights e ∧ ∀ c, numbers e.change = some c → c.change = .changed → Computed c

theorem endsWell_commits {b : Build} {env : Env} (hb : calm → b = .release ∧ ∀ s p c, W.fs s p = .ok c → Harmless env.syn c) (ho : HashOrder)
    (rx : RegexEngine) (repo : Path) (old new : Str) (params : CompareParams) (filter : FilterParams) (pattern : Str) (maxFiles : Nat) :
    EndsWell W calm FitReport (compareCommitsP b ho rx env repo old new params filter pattern maxFiles) := by
  unfold compareCommitsP
  split
  · exact ⟨fun _ h => (nomatch h), fun a h => (nomatch h)⟩
  · refine endsWell_bind (endsWell_mapErr (endsWell_checkout _ _ _)) fun _ _ => endsWell_bind (endsWell_list _ _ _) fun _ _ =>
      endsWell_bind (endsWell_parse (fun hc => (hb hc).2) _ _ _) fun olds h1 => endsWell_bind (endsWell_mapErr (endsWell_checkout _ _ _)) fun _ _ =>
      endsWell_bind (endsWell_list _ _ _) fun _ _ => endsWell_bind (endsWell_parse (fun hc => (hb hc).2) _ _ _) fun news h2 => ⟨fun hc => ?_, fun d hd => ?_⟩
    · rw [(hb hc).1]
      rcases C32_total ho rx olds news params filter with ⟨d, h⟩ | ⟨⟨m, h⟩, -⟩ <;> rw [h] <;> exact fun h => nomatch h
    · exact C90_reported h1 h2 hd

theorem endsWell_compare {srv : Server} (hb : calm → srv.build = .release ∧ ∀ s p c, W.fs s p = .ok c → Harmless srv.env.syn c) (ho : HashOrder) (a : CompareArgs) :
    EndsWell W calm FitReport (doCompare srv ho a) := by
  unfold doCompare
  split
  · exact ⟨fun _ h => (nomatch h), fun a h => (nomatch h)⟩
  · refine endsWell_bind (endsWell_commits hb _ _ _ _ _ _ _ _ _) fun diff hd => endsWell_pure fun e he => hd e ?_
    exact (List.mem_filter.1 ((C37_sort_changes _).perm.mem_iff.1 he)).1

theorem endsWell_branches {srv : Server} {syn : SynParser} (hb : calm → Peaceful W syn) (repo : Str) (fetch : Bool) :
    EndsWell W calm (fun _ => True) (branchesP srv repo fetch) := by
  unfold branchesP
  split
  · exact ⟨fun _ h => (nomatch h), fun _ _ => trivial⟩
  · refine endsWell_bind (P := fun _ => True) ?_ fun _ _ => ?_
    · unfold fetchP
      split
      · intro s
        refine ⟨fun hc => ?_, fun _ _ => trivial⟩
        cases hg : (W.git s [str% "fetch", str% "--all", str% "--prune", str% "--tags"]).1 with
        | spawnFailed e => exact fun h => nomatch h
        | exited ok out err u =>
          cases ok
          · rw [(hb hc).messages s _ out err u (.inl rfl) hg]; exact fun h => nomatch h
          · exact fun h => nomatch h
      · exact endsWell_pure trivial
    · intro s
      cases hg : (W.git s [str% "ls-remote", str% "--tags", str% "--heads"]).1 with
      | spawnFailed e => exact ⟨fun _ h => (nomatch h), fun _ _ => trivial⟩
      | exited ok out err u =>
        refine endsWell_bind (P := fun t => ok = true ∧ t = out) (p := .done (expectListed (.exited ok out err u))) ?_ ?_
        · refine ⟨fun hc => ?_, fun t ht => ?_⟩
          · cases ok
            · rw [(hb hc).messages s _ out err u (.inr rfl) hg]; exact fun h => nomatch h
            · exact fun h => nomatch h
          · cases ok
            · cases u <;> cases ht
            · cases ht; exact ⟨rfl, rfl⟩
        · rintro t ⟨rfl, rfl⟩
          refine ⟨fun hc => ?_, fun _ _ => trivial⟩
          obtain ⟨rs, rfl, hrs⟩ := (hb hc).references s t err u hg
          obtain ⟨bs, e⟩ := C62_no_panic hrs
          rw [e]
          exact fun h => nomatch h

/-! ### The server -/

/-- What is known of a request. -/
def Unharmed (W : World) (calm : Prop) : Pc W.State → Prop
  | .running _ _ _ p => EndsWell W calm FitReport p
  | .store _ _ _ _ r => (calm → r ≠ .panic) ∧ ∀ v, r = .ok v → FitReport v
  | .branching _ p => EndsWell W calm (fun _ => True) p
  | _ => True

/-- What is known of the shared state. -/
structure Healthy (W : World) (calm : Prop) (s : Shared W.State) : Prop where
  cache : ∀ e ∈ s.cache, FitReport e.2.2
  answers : ∀ id a diff cached t, Entry.answered id a (.ok diff) cached t ∈ s.log → FitReport diff
  poisoned : calm → s.poisoned = false
  died : calm → ∀ id, Entry.died id ∉ s.log

theorem healthy_quiet {s s' : Shared W.State} (h : Healthy W calm s) (hc : s'.cache = s.cache) (hl : s'.log = s.log) (hp : s'.poisoned = s.poisoned) :
    Healthy W calm s' := by
  obtain ⟨h1, h2, h3, h4⟩ := h
  exact ⟨hc ▸ h1, hl ▸ h2, hp ▸ h3, hl ▸ h4⟩

theorem healthy_remove {cache : List (CompareArgs × Nat × List ExtrinsicDiff)} (h : ∀ e ∈ cache, FitReport e.2.2) (a : CompareArgs) :
    ∀ e ∈ cacheRemove cache a, FitReport e.2.2 := fun e he => h e (List.mem_filter.1 he).1

theorem unharmed_step {srv : Server} (hb : calm → srv.build = .release ∧ Peaceful W srv.env.syn) {id : Nat} {pc pc' : Pc W.State}
    {s s' : Shared W.State} (h : Act1 W srv id pc s pc' s') (hk : Unharmed W calm pc) (hs : Healthy W calm s) :
    Unharmed W calm pc' ∧ Healthy W calm s' := by
  obtain ⟨h1, h2, h3, h4⟩ := hs
  cases h with
  | permit ho h => exact ⟨endsWell_compare (fun hc => ⟨(hb hc).1, (hb hc).2.files⟩) _ _, h1, h2, h3, h4⟩
  | work h => exact ⟨endsWell_step hk h, h1, h2, h3, h4⟩
  | ended h => exact ⟨hk, h1, h2, h3, h4⟩
  | branchTake h => exact ⟨endsWell_branches (fun hc => (hb hc).2) _ _, h1, h2, h3, h4⟩
  | branchWork h => exact ⟨endsWell_step hk h, h1, h2, h3, h4⟩
  | @scanEnd next i s hi =>
    refine ⟨by cases next <;> trivial, ?_⟩
    split <;> exact ⟨h1, h2, h3, h4⟩
  | scanDrop =>
    refine ⟨trivial, ?_⟩
    split <;> exact ⟨h1, h2, h3, h4⟩
  | lockPoisoned h hp =>
    refine ⟨trivial, h1, fun i a d ca t hm => ?_, h3, fun hc => absurd (h3 hc) (by rw [hp]; decide)⟩
    rcases List.mem_append.1 hm with hm | hm
    · exact h2 _ _ _ _ _ hm
    · simp at hm
  | unknown h =>
    refine ⟨trivial, h1, fun i a d ca t hm => ?_, h3, fun hc i hm => ?_⟩
    · rcases List.mem_append.1 hm with hm | hm
      · exact h2 _ _ _ _ _ hm
      · simp at hm
    · rcases List.mem_append.1 hm with hm | hm
      · exact h4 hc _ hm
      · simp at hm
  | @hit a s t v h hf =>
    have hv : FitReport v := by
      rw [cacheGet] at h
      obtain ⟨e, he, h⟩ := Option.map_eq_some_iff.1 h
      have := h1 e (List.mem_of_find?_eq_some he)
      rw [h] at this
      exact this
    refine ⟨trivial, h1, fun i a d ca t hm => ?_, h3, fun hc i hm => ?_⟩
    · rcases List.mem_append.1 hm with hm | hm
      · exact h2 _ _ _ _ _ hm
      · simp only [List.mem_singleton, Entry.answered.injEq, Except.ok.injEq] at hm
        rw [hm.2.2.1]; exact hv
    · rcases List.mem_append.1 hm with hm | hm
      · exact h4 hc _ hm
      · simp at hm
  | expired h hf => exact ⟨trivial, healthy_remove h1 _, h2, h3, h4⟩
  | @storeOk a ho st fi v s =>
    have hv : FitReport v := hk.2 v rfl
    refine ⟨trivial, fun e he => ?_, fun i a d ca t hm => ?_, h3, fun hc i hm => ?_⟩
    · rcases List.mem_cons.1 he with rfl | he
      · exact hv
      · exact healthy_remove h1 _ e he
    · rcases List.mem_append.1 hm with hm | hm
      · exact h2 _ _ _ _ _ hm
      · simp only [List.mem_cons, List.not_mem_nil, or_false, reduceCtorEq, false_or, Entry.answered.injEq, Except.ok.injEq] at hm
        rw [hm.2.2.1]; exact hv
    · rcases List.mem_append.1 hm with hm | hm
      · exact h4 hc _ hm
      · simp at hm
  | storeErr =>
    refine ⟨trivial, h1, fun i a d ca t hm => ?_, h3, fun hc i hm => ?_⟩
    · rcases List.mem_append.1 hm with hm | hm
      · exact h2 _ _ _ _ _ hm
      · simp at hm
    · rcases List.mem_append.1 hm with hm | hm
      · exact h4 hc _ hm
      · simp at hm
  | storePanic =>
    refine ⟨trivial, h1, fun i a d ca t hm => ?_, fun hc => absurd rfl (hk.1 hc), fun hc => absurd rfl (hk.1 hc)⟩
    rcases List.mem_append.1 hm with hm | hm
    · exact h2 _ _ _ _ _ hm
    · simp at hm
  | branchOk =>
    refine ⟨trivial, h1, fun i a d ca t hm => ?_, h3, fun hc i hm => ?_⟩
    · rcases List.mem_append.1 hm with hm | hm
      · exact h2 _ _ _ _ _ hm
      · simp at hm
    · rcases List.mem_append.1 hm with hm | hm
      · exact h4 hc _ hm
      · simp at hm
  | branchErr =>
    refine ⟨trivial, h1, fun i a d ca t hm => ?_, h3, fun hc i hm => ?_⟩
    · rcases List.mem_append.1 hm with hm | hm
      · exact h2 _ _ _ _ _ hm
      · simp at hm
    · rcases List.mem_append.1 hm with hm | hm
      · exact h4 hc _ hm
      · simp at hm
  | branchPanic =>
    refine ⟨trivial, h1, fun i a d ca t hm => ?_, h3, fun hc => absurd rfl (hk.1 hc)⟩
    rcases List.mem_append.1 hm with hm | hm
    · exact h2 _ _ _ _ _ hm
    · simp at hm
  | scanTake hi h => exact ⟨trivial, h1, h2, h3, h4⟩
  | lookup h => exact ⟨trivial, h1, h2, h3, h4⟩
  | known h => exact ⟨trivial, h1, h2, h3, h4⟩
  | lock h hp => exact ⟨trivial, h1, h2, h3, h4⟩
  | miss h => exact ⟨trivial, h1, h2, h3, h4⟩

theorem healthy {srv : Server} (hb : calm → srv.build = .release ∧ Peaceful W srv.env.syn) {c : Config W.State} (h : Reachable W srv c) :
    (∀ (i : Nat) pc, c.threads[i]? = some pc → Unharmed W calm pc) ∧ Healthy W calm c.sh := by
  induction h with
  | init repo clock =>
    exact ⟨fun i pc h => by simp [initial] at h, fun e he => (nomatch he), fun _ _ _ _ _ h => (nomatch h), fun _ => rfl, fun _ _ h => (nomatch h)⟩
  | @step c c' _ hs ih =>
    cases hs with
    | tick n => exact ⟨ih.1, healthy_quiet ih.2 rfl rfl rfl⟩
    | arrive r =>
      refine ⟨fun i pc h => ?_, ih.2⟩
      dsimp only at h
      rw [List.getElem?_append] at h
      split at h
      · exact ih.1 i pc h
      · rw [List.getElem?_singleton] at h
        split at h
        · cases h; cases r <;> trivial
        · cases h
    | thread j hj =>
      obtain ⟨pc0, pc', s', h0, ha, rfl⟩ := hj
      have := unharmed_step hb ha (ih.1 _ _ h0) ih.2
      refine ⟨fun i pc h => ?_, this.2⟩
      dsimp only at h
      rw [List.getElem?_set] at h
      split at h
      · split at h
        · cases h; exact this.1
        · cases h
      · exact ih.1 i pc h

/-- C90: in every state that the server can reach: all weights in a report that it has answered are `u128` numbers, and the percentages of the
changed ones were computed from them. -/
theorem C90_answers {srv : Server} {c : Config W.State} (h : Reachable W srv c) {id : Nat} {a : CompareArgs} {diff : List ExtrinsicDiff}
    {cached : Bool} {t : Nat} (hl : Entry.answered id a (.ok diff) cached t ∈ c.sh.log) :
    ∀ e ∈ diff, U128Weights e ∧ ∀ c, numbers e.change = some c → c.change = .changed → Computed c :=
  (healthy (calm := False) (fun h => h.elim) h).2.answers _ _ _ _ _ hl

/-- C90: release builds never panic while they make a page. -/
theorem C90_page {srv : Server} {c : Config W.State} (h : Reachable W srv c) {id : Nat} {a : CompareArgs} {diff : List ExtrinsicDiff}
    {cached : Bool} {t : Nat} (hl : Entry.answered id a (.ok diff) cached t ∈ c.sh.log) (version : Str) (names : List Str) (org : Str) (b : Bool) :
    ∃ page, comparePage .release version names org a diff b = .ok page :=
  C73_total version names org a diff b fun e he c hc => (C90_answers h hl e he).2 c hc

/-- C90: in a peaceful world, no request ever panics, and the cache is never poisoned. -/
theorem C90_alive {srv : Server} (hr : srv.build = .release) (hp : Peaceful W srv.env.syn) {c : Config W.State} (h : Reachable W srv c) :
    c.sh.poisoned = false ∧ ∀ id, Entry.died id ∉ c.sh.log :=
  have := (healthy (calm := True) (fun _ => ⟨hr, hp⟩) h).2
  ⟨this.poisoned trivial, this.died trivial⟩

/-! ### The site -/

/-- C90: once nothing is left to do, every request has been answered, or its handler has panicked while it worked, in release builds. -/
theorem C90_settled {s : Site} (hr : s.srv.build = .release) {st : SiteState W.State} (hR : s.Reachable W st) (hd : AllDone st.conf) {k : Nat}
    (hk : k < st.inbox.length) : (∃ resp, s.Replied st k resp) ∨ ∃ r id, st.inbox[k]? = some (r, .inr id) ∧ Entry.died id ∈ st.conf.sh.log := by
  rcases C89_settled hR hd hk with h | h | ⟨r, id, a, diff, cached, t, org, h1, h2, h3, h4⟩
  · exact .inl h
  · exact .inr h
  · rw [hr] at h4
    exact absurd (C90_page (sound hR).reach h2 _ _ _ _) h4

/-- C90: in a peaceful world, once nothing is left to do, every request has been answered. -/
theorem C90_answered {s : Site} (hr : s.srv.build = .release) (hp : Peaceful W s.srv.env.syn) {st : SiteState W.State} (hR : s.Reachable W st)
    (hd : AllDone st.conf) {k : Nat} (hk : k < st.inbox.length) : ∃ resp, s.Replied st k resp := by
  rcases C90_settled hr hR hd hk with h | ⟨r, id, h1, h2⟩
  · exact h
  · exact absurd h2 ((C90_alive hr hp (sound hR).reach).2 id)

theorem later_of_ahead {s : Site} {st st' : SiteState W.State} (h : Ahead W s st st') : Later W s.srv st.conf st'.conf := by
  induction h with
  | refl => exact .refl
  | step _ hs ih => exact later_trans ih (step_of_site hs)

theorem ahead_trans {s : Site} {st st' st'' : SiteState W.State} (h : Ahead W s st st') (h' : Ahead W s st' st'') : Ahead W s st st'' := by
  induction h' with
  | refl => exact h
  | step _ hs ih => exact .step ih hs

theorem inbox_ahead {s : Site} {st st' : SiteState W.State} (h : Ahead W s st st') : ∃ l, st'.inbox = st.inbox ++ l := by
  induction h with
  | refl => exact ⟨[], (List.append_nil _).symm⟩
  | step _ hs ih =>
    obtain ⟨l, hl⟩ := ih
    cases hs with
    | thread => exact ⟨l, hl⟩
    | tick => exact ⟨l, hl⟩
    | now r h => exact ⟨l ++ [_], by rw [← List.append_assoc, ← hl]⟩
    | later r h => exact ⟨l ++ [_], by rw [← List.append_assoc, ← hl]⟩

/-- Requests that came later have larger numbers. -/
theorem ids_ahead {s : Site} {st st' : SiteState W.State} (h : Ahead W s st st') {k : Nat} {r : HttpRequest} {id : Nat}
    (hk : st'.inbox[k]? = some (r, .inr id)) (hge : st.inbox.length ≤ k) : st.conf.threads.length ≤ id := by
  induction h with
  | refl => exact absurd (List.getElem?_eq_some_iff.1 hk).1 (by omega)
  | @step st1 st2 ha hs ih =>
    have hle := (ahead_of_later (s := s) (later_of_ahead ha)).1
    cases hs with
    | thread => exact ih hk
    | tick => exact ih hk
    | now r' h' =>
      dsimp only at hk
      rw [List.getElem?_append] at hk
      split at hk
      · exact ih hk
      · rw [List.getElem?_singleton] at hk
        split at hk <;> cases hk
    | later r' h' =>
      dsimp only at hk
      rw [List.getElem?_append] at hk
      split at hk
      · exact ih hk
      · rw [List.getElem?_singleton] at hk
        split at hk <;> cases hk
        exact hle

/-- C90: in a peaceful world, at any time, if a further request comes and then no more, the server can answer it and all requests before it. -/
theorem C90_responds {s : Site} (hr : s.srv.build = .release) (hp : Peaceful W s.srv.env.syn) {st : SiteState W.State} (hR : s.Reachable W st)
    (r : HttpRequest) : ∃ st' x, Ahead W s st st' ∧ st'.inbox = st.inbox ++ [(r, x)] ∧ ∀ k, k ≤ st.inbox.length → ∃ resp, s.Replied st' k resp := by
  have arrive : ∃ st1 x, s.Step W st st1 ∧ st1.inbox = st.inbox ++ [(r, x)] := by
    cases ha : s.accept r with
    | answer resp => exact ⟨_, _, .now r ha, rfl⟩
    | run req => exact ⟨_, _, .later r ha, rfl⟩
  obtain ⟨st1, x, h1, h2⟩ := arrive
  obtain ⟨st', h3, h4, h5⟩ := C89_settles (.step hR h1)
  have h6 : Ahead W s st st' := ahead_trans (.step .refl h1) h3
  exact ⟨st', x, h6, h4.trans h2, fun k hk => C90_answered hr hp (reachable_ahead hR h6) h5 (by rw [h4, h2]; simp; omega)⟩

/-- C90: a run without further requests that does not come to rest while something is left to do gets to where nothing is left to do. -/
theorem C90_finishes {s : Site} {g : Nat → SiteState W.State} (h : Undisturbed W s g) : ∃ n, AllDone (g n).conf := by
  have hstep : ∀ n, (¬ ∃ i, ThreadStep W s.srv i (g n).conf (g (n + 1)).conf) →
      ∃ d, (g (n + 1)).conf = ⟨(g n).conf.threads, { (g n).conf.sh with clock := (g n).conf.sh.clock + d }⟩ := by
    intro n hno
    rcases h.step n with e | hs
    · exact ⟨0, by rw [e]; rfl⟩
    · have hin : (g (n + 1)).inbox = (g n).inbox := (h.alone _).trans (h.alone _).symm
      generalize hg : g (n + 1) = x at hs hin hno
      cases hs with
      | thread i hi => exact absurd ⟨i, hi⟩ hno
      | now r h => exact absurd hin (by simp)
      | later r h => exact absurd hin (by simp)
      | tick d => exact ⟨d, rfl⟩
  have hidle : ∀ n k, (∀ m, n ≤ m → m < n + k → ¬ ∃ i, ThreadStep W s.srv i (g m).conf (g (m + 1)).conf) →
      ∃ d, (g (n + k)).conf = ⟨(g n).conf.threads, { (g n).conf.sh with clock := (g n).conf.sh.clock + d }⟩ := by
    intro n k
    induction k with
    | zero => exact fun _ => ⟨0, rfl⟩
    | succ k ih =>
      intro hno
      obtain ⟨d, hd⟩ := ih fun m h1 h2 => hno m h1 (by omega)
      obtain ⟨e, he⟩ := hstep (n + k) (hno (n + k) (by omega) (by omega))
      refine ⟨d + e, ?_⟩
      rw [← Nat.add_assoc, he, hd]
      dsimp only
      rw [Nat.add_assoc]
  have key : ∀ c : Config W.State, ∀ n, (g n).conf = c → ∃ n, AllDone (g n).conf := by
    intro c
    induction c using (C56_terminates (W := W) (srv := s.srv)).induction with
    | _ c ih =>
      rintro n rfl
      by_cases hd : AllDone (g n).conf
      · exact ⟨n, hd⟩
      · obtain ⟨m, ⟨hm, i, hi⟩, hmin⟩ : ∃ m, (n ≤ m ∧ ∃ i, ThreadStep W s.srv i (g m).conf (g (m + 1)).conf) ∧
            ∀ m', m' < m → ¬ (n ≤ m' ∧ ∃ i, ThreadStep W s.srv i (g m').conf (g (m' + 1)).conf) := by
          classical
          exact ⟨_, Nat.find_spec (h.busy n hd), fun m' hm' => Nat.find_min _ hm'⟩
        obtain ⟨k, rfl⟩ := Nat.exists_eq_add_of_le hm
        obtain ⟨d, hd'⟩ := hidle n k fun m' h1 h2 hex => hmin m' h2 ⟨h1, hex⟩
        rw [hd'] at hi
        exact ih _ ⟨d, i, hi⟩ (n + k + 1) rfl
  exact key _ 0 rfl

/-- C90: in a peaceful world every request is answered sooner or later, in whatever order the server works, if no further requests come. -/
theorem C90_eventually {s : Site} (hr : s.srv.build = .release) (hp : Peaceful W s.srv.env.syn) {g : Nat → SiteState W.State} (hR : s.Reachable W (g 0))
    (h : Undisturbed W s g) : ∃ n, ∀ k, k < (g 0).inbox.length → ∃ resp, s.Replied (g n) k resp := by
  obtain ⟨n, hn⟩ := C90_finishes h
  have hreach : ∀ n, s.Reachable W (g n) := by
    intro n
    induction n with
    | zero => exact hR
    | succ n ih =>
      rcases h.step n with e | hs
      · rw [e]; exact ih
      · exact .step ih hs
  exact ⟨n, fun k hk => C90_answered hr hp (hreach n) hn (by rw [h.alone]; exact hk)⟩

/-- There are such runs, from every reachable state. -/
theorem undisturbed_exists {s : Site} {st : SiteState W.State} (hR : s.Reachable W st) : ∃ g, g 0 = st ∧ Undisturbed W s g := by
  classical
  have next : ∀ x : { x : SiteState W.State // s.Reachable W x }, ∃ y : { y : SiteState W.State // s.Reachable W y },
      (AllDone x.1.conf → y = x) ∧ (¬ AllDone x.1.conf → s.Step W x.1 y.1 ∧ y.1.inbox = x.1.inbox ∧ ∃ i, ThreadStep W s.srv i x.1.conf y.1.conf) := by
    intro x
    by_cases hd : AllDone x.1.conf
    · exact ⟨x, fun _ => rfl, fun h => absurd hd h⟩
    · obtain ⟨i, c', hi⟩ := C56_progress (sound x.2).reach hd
      exact ⟨⟨⟨c', x.1.inbox⟩, .step x.2 (.thread i hi)⟩, fun h => absurd h hd, fun _ => ⟨.thread i hi, rfl, i, hi⟩⟩
  choose f hf using next
  let g : Nat → { x : SiteState W.State // s.Reachable W x } := fun n => n.rec ⟨st, hR⟩ fun _ x => f x
  have hg : ∀ n, g (n + 1) = f (g n) := fun _ => rfl
  refine ⟨fun n => (g n).1, rfl, fun n => ?_, fun n => ?_, fun n hn => ⟨n, Nat.le_refl _, ?_⟩⟩
  · by_cases hd : AllDone (g n).1.conf
    · left; show (g (n + 1)).1 = _; rw [hg, (hf _).1 hd]
    · right; show s.Step W _ (g (n + 1)).1; rw [hg]; exact ((hf _).2 hd).1
  · induction n with
    | zero => rfl
    | succ n ih =>
      rw [← ih]
      show (g (n + 1)).1.inbox = _
      rw [hg]
      by_cases hd : AllDone (g n).1.conf
      · rw [(hf _).1 hd]
      · exact ((hf _).2 hd).2.1
  · show ∃ i, ThreadStep W s.srv i _ (g (n + 1)).1.conf
    rw [hg]
    exact ((hf _).2 hn).2.2

/-- A request for a comparison is accepted. -/
theorem accept_compare (s : Site) {r : HttpRequest} (hr : Requests r (str% "/compare")) {ps : List (Str × Str)} (hs : SpellsPairs ps r.query)
    {asked : CompareArgs} (hA : Asks ps asked) : s.accept r = .run (.compare { asked with
      new := s.ent.decode asked.new, old := s.ent.decode asked.old, pathPattern := s.ent.decode asked.pathPattern }) := by
  unfold Site.accept
  rw [(C89_route r (h := .compare) rfl).2 hr]
  dsimp only
  rw [requestArgs, (C69_query s.u hs asked).2 hA]
  rfl

/-- C90 (finding): once a comparison has panicked, no request for a comparison in one of the repositories is ever answered again: the mutex stays poisoned. -/
theorem C90_silenced {s : Site} {m : Machine} {args : List Str} {cmd : ServerCmd} (hS : s.Started m args cmd) {st st' : SiteState W.State}
    (hR : s.Reachable W st) (hp : st.conf.sh.poisoned = true) (ha : Ahead W s st st') {k : Nat} {r : HttpRequest} {x : Response ⊕ Nat}
    (hk : st'.inbox[k]? = some (r, x)) (hr : Requests r (str% "/compare")) {ps : List (Str × Str)} (hs : SpellsPairs ps r.query)
    {asked : CompareArgs} (hA : Asks ps asked) (hrepo : asked.repo ∈ cmd.repos) (hbefore : ∀ resp, ¬ s.Replied st k resp) (resp : Response) :
    ¬ s.Replied st' k resp := by
  have hq := accept_compare s hr hs hA
  have hrepo : s.srv.repos asked.repo ≠ none := by
    obtain ⟨org, ho, hpth, horg⟩ := (C89_serves hS asked.repo).2.2 hrepo
    rw [hpth]
    exact fun h => nomatch h
  generalize ea : ({ asked with new := s.ent.decode asked.new, old := s.ent.decode asked.old, pathPattern := s.ent.decode asked.pathPattern } : CompareArgs) = a at hq
  have er : a.repo = asked.repo := by rw [← ea]
  rw [← er] at hrepo
  intro h
  cases answers (reachable_ahead hR ha) h hk with
  | now h' => rw [hq] at h'; cases h'
  | listed _ h' => rw [hq] at h'; cases h'
  | shown h' => rw [hq] at h'; cases h'
  | @compared id a' y cached t hx h' hl hu hpg =>
    rw [hq] at h'
    cases h'
    obtain ⟨-, es, he, -, hes⟩ := C54_poisoned_forever (sound hR).reach hp (later_of_ahead ha)
    rw [he] at hl
    rcases List.mem_append.1 hl with hl | hl
    · obtain ⟨l, hin⟩ := inbox_ahead ha
      have hlt : k < st.inbox.length := by
        by_contra hge
        have hid := ids_ahead ha (hx ▸ hk) (by omega)
        have := reachable_threads_own (sound hR).reach hid
        exact absurd (mem_own hl (show ends id (Entry.answered id a y cached t) = true from decide_eq_true rfl)) (by rw [this]; simp)
      rw [hin, List.getElem?_append_left hlt, hx] at hk
      exact hbefore resp (.compared hk hl hpg)
    · exact hrepo (hes _ _ _ _ _ hl).1

/-! ### Concrete cases -/

/-- The files in the repository of the site. -/
def exSiteFiles : List Path :=
  [[.normal (str% "r"), .normal (str% "repo"), .normal (str% "a.rs")], [.normal (str% "r"), .normal (str% "repo"), .normal (str% "w.rs")]]

/-- The repository of the site: its revisions `v1` and `v2` have two generated weight files. -/
def exSiteWorld : World := { exGenWorld with glob := fun _ _ => .ok (exSiteFiles.map .ok) }

/-- All hypotheses about the world are met. -/
theorem exSite_peaceful : Peaceful exSiteWorld exSite.srv.env.syn where
  files (s : Str) p c h := by
    refine C90_generated ?_
    have h : Except.ok (exGenText (if s = str% "v1" then str% "7_000_000" else str% "9_000000_u64")) = .ok c := h
    cases h
    split
    · exact ⟨_, _, exGen_7, by decide, exGen_ok (by decide)⟩
    · exact ⟨_, _, exGen_9, by decide, exGen_ok (by decide)⟩
  messages s args out err utf8 ha h := by
    rcases ha with rfl | rfl
    · have h : (GitOut.spawnFailed (str% "no git")) = .exited false out err utf8 := h
      cases h
    · have h : (GitOut.exited false [] (str% "no such revision") true) = .exited false out err utf8 := h
      cases h
      rfl
  references s out err utf8 h := by
    have h : (GitOut.exited false [] (str% "no such revision") true) = .exited true out err utf8 := h
    cases h

/-- The request for the comparison. -/
def exCompareRequest : HttpRequest := ⟨str% "GET", utf8 (str% "/compare"), formSerialize exAskPairs⟩

theorem exCompare_requests : Requests exCompareRequest (str% "/compare") := (C89_route exCompareRequest (h := .compare) rfl).1 (by decide +kernel)

theorem exCompare_accepted : exSite.accept exCompareRequest = .run (.compare exAskArgs) :=
  accept_compare exSite exCompare_requests (C69_serialized _) ((C69_args _ exAskArgs).1 rfl)

/-- In the peaceful world of the example the request for the comparison and one that leads nowhere are answered. -/
example : ∃ st, exSite.Reachable exSiteWorld st ∧ st.inbox.map (·.1) = [exCompareRequest, ⟨str% "POST", [], []⟩] ∧
    (∃ resp, exSite.Replied st 0 resp) ∧ ∃ resp, exSite.Replied st 1 resp := by
  have h0 : exSite.Reachable exSiteWorld ⟨initial exSiteWorld (fun _ => str% "start") 0, []⟩ := .init _ _
  obtain ⟨st1, x1, a1, i1, -⟩ := C90_responds rfl exSite_peaceful h0 exCompareRequest
  obtain ⟨st2, x2, a2, i2, h2⟩ := C90_responds rfl exSite_peaceful (reachable_ahead h0 a1) ⟨str% "POST", [], []⟩
  exact ⟨st2, reachable_ahead (reachable_ahead h0 a1) a2, by rw [i2, i1]; rfl, h2 0 (by rw [i1]; simp), h2 1 (by rw [i1]; simp)⟩

/-- In every run that goes on from the arrival of the request for the comparison, it is answered. -/
example : ∃ st, exSite.Reachable exSiteWorld st ∧ st.inbox = [(exCompareRequest, .inr 0)] ∧ (∃ g, g 0 = st ∧ Undisturbed exSiteWorld exSite g) ∧
    ∀ g, g 0 = st → Undisturbed exSiteWorld exSite g → ∃ n resp, exSite.Replied (g n) 0 resp := by
  have h0 : exSite.Reachable exSiteWorld ⟨initial exSiteWorld (fun _ => str% "start") 0, []⟩ := .init _ _
  have h1 := Site.Reachable.step h0 (.later _ exCompare_accepted)
  refine ⟨_, h1, rfl, undisturbed_exists h1, fun g hg hu => ?_⟩
  obtain ⟨n, hn⟩ := C90_eventually rfl exSite_peaceful (hg ▸ h1) hu
  exact ⟨n, hn 0 (by rw [hg]; exact Nat.zero_lt_one)⟩

/-- The same, but the files contain a number that does not fit into `u128`. -/
def exBadWorld : World := { exSiteWorld with fs := fun _ _ => .ok (exGenText (str% "340282366920938463463374607431768211456")) }

/-- The hypotheses of `C90_silenced` are met: the first request poisons the cache, a second one comes. -/
theorem C90_example : ∃ cmd st st', exSite.Started exMachine exSiteLine cmd ∧ exAskArgs.repo ∈ cmd.repos ∧ exSite.Reachable exBadWorld st ∧
    st.conf.sh.poisoned = true ∧ Ahead exBadWorld exSite st st' ∧ (∃ x, st'.inbox[1]? = some (exCompareRequest, x)) ∧
    (∀ resp, ¬ exSite.Replied st 1 resp) ∧ ∀ resp, ¬ exSite.Replied st' 1 resp := by
  obtain ⟨cmd, hS⟩ := exSite_started
  have h0 : exSite.Reachable exBadWorld ⟨initial exBadWorld (fun _ => str% "start") 7, []⟩ := .init _ _
  have h1 := Site.Reachable.step h0 (.later _ exCompare_accepted)
  obtain ⟨c, r, fi, k1, k2, k3, -, -, -, -, k7, -⟩ := C54_computes (a := exAskArgs) (sound h0).reach (by intro pc hp; cases hp) rfl
    (by show exSite.srv.repos (str% "repo") ≠ none; exact fun h => nomatch h) rfl idOrder
  have hpan : isPanic r = true := by
    have : r = ((doCompare exSite.srv idOrder exAskArgs).run exBadWorld (str% "start")).1 := congrArg Prod.fst k3
    rw [this]
    decide +kernel
  have hpo : c.sh.poisoned = true := k7.2 (by cases r <;> simp [isPanic] at hpan; rfl)
  have h2 : Ahead exBadWorld exSite _ ⟨c, _⟩ := (ahead_of_later (s := exSite) k1).2 (by rw [k2]; simp) [(exCompareRequest, .inr 0)]
  have hR : exSite.Reachable exBadWorld ⟨c, [(exCompareRequest, .inr 0)]⟩ := reachable_ahead h1 h2
  have h3 : Ahead exBadWorld exSite ⟨c, [(exCompareRequest, .inr 0)]⟩ _ := .step .refl (.later _ exCompare_accepted)
  have hin : exAskArgs.repo ∈ cmd.repos := (C89_serves hS (str% "repo")).1.1 (by show _ ∈ [str% "repo"]; simp)
  have hno : ∀ resp, ¬ exSite.Replied (W := exBadWorld) ⟨c, [(exCompareRequest, .inr 0)]⟩ 1 resp := by
    intro resp h
    cases h with
    | now h => cases h
    | compared h => cases h
    | listed h => cases h
    | shown h => cases h
  exact ⟨cmd, _, _, hS, hin, hR, hpo, h3, ⟨_, rfl⟩, hno, C90_silenced hS hR hpo h3 rfl exCompare_requests (C69_serialized _)
    ((C69_args _ exAskArgs).1 rfl) hin hno⟩

end Swc
