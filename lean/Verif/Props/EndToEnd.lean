/-
C68: from the source of a generated weight function to the reported worst case.
-/
import Verif.Spec.Source
import Verif.Props.Parse
import Verif.Props.ParseFile
import Verif.Props.WorstCase
import Verif.Props.CompareFiles
import Verif.Props.Git
import Verif.Props.Chromatic

namespace Swc

open Spec Term

/-! ### The equations of template bodies -/

/-- In every dimension the equation is affine in each component, and its parts are at most `B` or its value, for components up to 2^32. -/
def Tame (B : Nat) (t : ChromaticTerm) : Prop :=
  ∀ d, MultiAffine (project d t) ∧
    ∀ ρ : Str → Nat, (∀ x, ρ x ≤ 2 ^ 32) → ∀ s, Sub s (project d t) → denote ρ s ≤ max B (denote ρ (project d t))

theorem tlit_le {M : Nat} {e : Expr} (h : TLit M e) {t : SimpleTerm} (ht : parseScalar e = .ok t) : ∃ n, t = .scalar n ∧ n ≤ M := by
  induction h with
  | @lit digits n h hn =>
    rw [parseScalar] at ht
    obtain ⟨m, hm, h'⟩ := bind_eq_ok ht
    cases h'
    exact ⟨m, rfl, by rw [litToValue_ok h hm]; exact hn⟩
  | paren _ ih => rw [parseScalar] at ht; exact ih ht
  | cast _ ih => rw [parseScalar] at ht; exact ih ht

theorem tcomp_scalar {e : Expr} (h : TComp e) {t : SimpleTerm} (ht : parseScalar e = .ok t) : ∃ c, t = .var c := by
  induction h with
  | path => cases ht; exact ⟨_, rfl⟩
  | into _ ih => rw [ps_into] at ht; exact ih ht
  | paren _ ih => rw [parseScalar] at ht; exact ih ht
  | cast _ ih => rw [parseScalar] at ht; exact ih ht

theorem tcomp_expr {e : Expr} (h : TComp e) {t : ChromaticTerm} (ht : parseExpression e = .ok t) : ∃ c, t = .var c := by
  induction h with
  | path => cases ht; exact ⟨_, rfl⟩
  | into _ ih => rw [pe_into] at ht; exact ih ht
  | paren _ ih => rw [parseExpression] at ht; exact ih ht
  | cast _ ih => rw [parseExpression] at ht; exact ih ht

/-- The number of accesses: a number, or a number times a component. -/
theorem tcount_scalar {M : Nat} {e : Expr} (h : TCount M e) {t : SimpleTerm} (ht : parseScalar e = .ok t) :
    (∃ n, t = .scalar n ∧ n ≤ M) ∨ ∃ n c, t = .mul (.scalar n) (.var c) ∧ n ≤ M := by
  induction h with
  | lit h => exact .inl (tlit_le h ht)
  | mul h hc =>
    rw [ps_mul] at ht
    obtain ⟨x, hx, ht⟩ := bind_eq_ok ht
    obtain ⟨y, hy, ht⟩ := bind_eq_ok ht
    cases ht
    obtain ⟨n, rfl, hn⟩ := tlit_le h hx
    obtain ⟨c, rfl⟩ := tcomp_scalar hc hy
    exact .inr ⟨n, c, rfl, hn⟩
  | paren _ ih => rw [parseScalar] at ht; exact ih ht

theorem tcount_rw {M : Nat} {e : Expr} (h : TCount M e) {t : ChromaticTerm} (ht : parseRw e = .ok t) :
    ∀ d, ∃ n, n ≤ M ∧ (project d t = .scalar n ∨ project d t = .value n ∨ ∃ c, project d t = .mul (.value n) (.var c)) := by
  have key : ∀ s, parseScalar e = .ok s → (t = intoChromatic .time s ∨ ∃ n, s = .scalar n ∧ t = .scalar n) →
      ∀ d, ∃ n, n ≤ M ∧ (project d t = .scalar n ∨ project d t = .value n ∨ ∃ c, project d t = .mul (.value n) (.var c)) := by
    intro s hs ht d
    rcases ht with rfl | ⟨n, rfl, rfl⟩
    · rcases tcount_scalar h hs with ⟨n, rfl, hn⟩ | ⟨n, c, rfl, hn⟩
      · cases d
        · exact ⟨n, hn, .inr (.inl rfl)⟩
        · exact ⟨0, Nat.zero_le _, .inr (.inl rfl)⟩
      · cases d
        · exact ⟨n, hn, .inr (.inr ⟨c, rfl⟩)⟩
        · exact ⟨0, Nat.zero_le _, .inr (.inr ⟨c, rfl⟩)⟩
    · rcases tcount_scalar h hs with ⟨m, e, hm⟩ | ⟨m, c, e, hm⟩
      · cases e; exact ⟨n, hm, .inl rfl⟩
      · cases e
  unfold parseRw at ht
  split at ht
  · obtain ⟨m, hm, ht⟩ := bind_eq_ok ht
    cases ht
    exact key (.scalar m) (by rw [parseScalar, hm]; rfl) (.inr ⟨m, rfl, rfl⟩)
  · obtain ⟨s, hs, ht⟩ := bind_eq_ok ht
    cases ht
    exact key s hs (.inl rfl)

theorem tbase_value {M : Nat} {e : Expr} (h : TBase M e) {t : ChromaticTerm} (ht : parseExpression e = .ok t) :
    ∀ d, ∃ n, n ≤ M ∧ project d t = .value n := by
  induction h with
  | parts h ha hc =>
    rw [pe_fromParts h] at ht
    obtain ⟨x, hx, ht⟩ := bind_eq_ok ht
    obtain ⟨y, hy, ht⟩ := bind_eq_ok ht
    cases ht
    obtain ⟨n, rfl, hn⟩ := tlit_le ha hx
    obtain ⟨m, rfl, hm⟩ := tlit_le hc hy
    intro d
    simp only [intoChromatic, scalarIntoTerm, spliceAdd]
    split
    · rename_i h0
      cases d
      · exact ⟨0, Nat.zero_le _, rfl⟩
      · exact ⟨0, Nat.zero_le _, rfl⟩
    · cases d
      · exact ⟨n, hn, by simp [project]⟩
      · exact ⟨m, hm, by simp [project]⟩
  | refTime h ha =>
    rw [pe_fromRefTime h] at ht
    obtain ⟨x, hx, ht⟩ := bind_eq_ok ht
    cases ht
    obtain ⟨n, rfl, hn⟩ := tlit_le ha hx
    intro d
    cases d
    · exact ⟨n, hn, rfl⟩
    · exact ⟨0, Nat.zero_le _, rfl⟩
  | paren _ ih => rw [parseExpression] at ht; exact ih ht

theorem tame_value {M : Nat} {t : ChromaticTerm} (h : ∀ d, ∃ n, n ≤ M ∧ project d t = .value n) : Tame ((M + 1) * 2 ^ 32) t := by
  intro d
  obtain ⟨n, hn, he⟩ := h d
  rw [he]
  refine ⟨.value, fun ρ _ s hs => ?_⟩
  cases hs
  exact Nat.le_max_right _ _

theorem tame_slope {M : Nat} {t : ChromaticTerm} {c : Str} (h : ∀ d, ∃ n, n ≤ M ∧ project d t = .value n) :
    Tame ((M + 1) * 2 ^ 32) (.mul t (.var c)) := by
  intro d
  obtain ⟨n, hn, he⟩ := h d
  rw [project, he, project]
  refine ⟨.mul .value .var (fun y h => by cases h), fun ρ hρ s hs => ?_⟩
  cases hs with
  | refl => exact Nat.le_max_right _ _
  | mulL hs => cases hs; exact Nat.le_trans (Nat.le_trans hn (by omega)) (Nat.le_max_left _ _)
  | mulR hs => cases hs; exact Nat.le_trans (Nat.le_trans (hρ _) (by omega)) (Nat.le_max_left _ _)

theorem tame_access {M : Nat} {u : ChromaticTerm} {x : Str} (hx : x = str% "READ" ∨ x = str% "WRITE")
    (h : ∀ d, ∃ n, n ≤ M ∧ (project d u = .scalar n ∨ project d u = .value n ∨ ∃ c, project d u = .mul (.value n) (.var c))) :
    Tame ((M + 1) * 2 ^ 32) (.mul u (.var x)) := by
  have hB : M ≤ (M + 1) * 2 ^ 32 := by omega
  have hB' : ∀ n v : Nat, n ≤ M → v ≤ 2 ^ 32 → n * v ≤ (M + 1) * 2 ^ 32 := fun n v h1 h2 => Nat.mul_le_mul (by omega) h2
  intro d
  obtain ⟨n, hn, he⟩ := h d
  rw [project]
  refine ⟨?_, fun ρ hρ s hs => ?_⟩
  · rcases he with he | he | ⟨c, he⟩ <;> rw [he]
    · exact .mul .scalar .var (fun y h => by cases h)
    · exact .mul .value .var (fun y h => by cases h)
    · refine .mul (.mul .value .var (fun y h => by cases h)) .var (fun y _ h => ?_)
      cases h
      exact hx
  · cases hs with
    | refl => exact Nat.le_max_right _ _
    | mulL hs =>
      refine Nat.le_trans ?_ (Nat.le_max_left _ _)
      rcases he with he | he | ⟨c, he⟩ <;> rw [he] at hs
      · cases hs; exact Nat.le_trans hn hB
      · cases hs; exact Nat.le_trans hn hB
      · cases hs with
        | refl => exact hB' _ _ hn (hρ _)
        | mulL hs => cases hs; exact Nat.le_trans hn hB
        | mulR hs => cases hs; exact Nat.le_trans (hρ _) (by omega)
    | mulR hs =>
      refine Nat.le_trans ?_ (Nat.le_max_left _ _)
      cases hs
      exact Nat.le_trans (hρ _) (by omega)

theorem tame_add {B : Nat} {t u : ChromaticTerm} (ht : Tame B t) (hu : Tame B u) : Tame B (.add t u) := by
  intro d
  obtain ⟨a1, a2⟩ := ht d
  obtain ⟨b1, b2⟩ := hu d
  refine ⟨.add a1 b1, fun ρ hρ s hs => ?_⟩
  rw [project, denote]
  cases hs with
  | refl => exact Nat.le_max_right _ _
  | addL hs => have := a2 ρ hρ s hs; omega
  | addR hs => have := b2 ρ hρ s hs; omega

theorem tsummand_tame {M : Nat} {e : Expr} (h : TSummand M e) {t : ChromaticTerm} (ht : parseExpression e = .ok t) :
    Tame ((M + 1) * 2 ^ 32) t := by
  cases h with
  | base h => exact tame_value (tbase_value h ht)
  | slope h hc =>
    rw [pe_mul] at ht
    obtain ⟨x, hx, ht⟩ := bind_eq_ok ht
    obtain ⟨y, hy, ht⟩ := bind_eq_ok ht
    cases ht
    obtain ⟨c, rfl⟩ := tcomp_expr hc hy
    exact tame_slope (tbase_value h hx)
  | reads hd h =>
    rw [pe_reads] at ht
    obtain ⟨_, _, ht⟩ := bind_eq_ok ht
    obtain ⟨y, hy, ht⟩ := bind_eq_ok ht
    cases ht
    exact tame_access (.inl rfl) (tcount_rw h hy)
  | writes hd h =>
    rw [pe_writes] at ht
    obtain ⟨_, _, ht⟩ := bind_eq_ok ht
    obtain ⟨y, hy, ht⟩ := bind_eq_ok ht
    cases ht
    exact tame_access (.inr rfl) (tcount_rw h hy)

/-- The equations of the old template. -/
theorem tsummand1_tame {M : Nat} {e : Expr} (h : TSummand1 M e) {t : SimpleTerm} (ht : parseScalar e = .ok t) :
    Tame ((M + 1) * 2 ^ 32) (intoChromatic .time t) := by
  have lit : ∀ {n : Nat}, n ≤ M → ∀ d, ∃ k, k ≤ M ∧ project d (intoChromatic .time (.scalar n)) = .value k := by
    intro n hn d
    cases d
    · exact ⟨n, hn, rfl⟩
    · exact ⟨0, Nat.zero_le _, rfl⟩
  have cnt : ∀ {e : Expr}, TCount M e → ∀ {u : SimpleTerm}, parseScalar e = .ok u → ∀ d, ∃ n, n ≤ M ∧
      (project d (intoChromatic .time u) = .scalar n ∨ project d (intoChromatic .time u) = .value n ∨
        ∃ c, project d (intoChromatic .time u) = .mul (.value n) (.var c)) := by
    intro e he u hu d
    rcases tcount_scalar he hu with ⟨n, rfl, hn⟩ | ⟨n, c, rfl, hn⟩
    · obtain ⟨k, hk, hp⟩ := lit hn d
      exact ⟨k, hk, .inr (.inl hp)⟩
    · cases d
      · exact ⟨n, hn, .inr (.inr ⟨c, rfl⟩)⟩
      · exact ⟨0, Nat.zero_le _, .inr (.inr ⟨c, rfl⟩)⟩
  cases h with
  | base h =>
    obtain ⟨n, rfl, hn⟩ := tlit_le h ht
    exact tame_value (lit hn)
  | slope h hc =>
    rw [ps_mul] at ht
    obtain ⟨x, hx, ht⟩ := bind_eq_ok ht
    obtain ⟨y, hy, ht⟩ := bind_eq_ok ht
    cases ht
    obtain ⟨c, rfl⟩ := tcomp_scalar hc hy
    obtain ⟨n, rfl, hn⟩ := tlit_le h hx
    exact tame_slope (lit hn)
  | reads hd h =>
    rw [ps_reads] at ht
    obtain ⟨_, _, ht⟩ := bind_eq_ok ht
    obtain ⟨y, hy, ht⟩ := bind_eq_ok ht
    cases ht
    exact tame_access (.inl rfl) (cnt h hy)
  | writes hd h =>
    rw [ps_writes] at ht
    obtain ⟨_, _, ht⟩ := bind_eq_ok ht
    obtain ⟨y, hy, ht⟩ := bind_eq_ok ht
    cases ht
    exact tame_access (.inr rfl) (cnt h hy)

theorem template1_scalar_tame {M : Nat} {e : Expr} (h : Template1 M e) {t : SimpleTerm} (ht : parseScalar e = .ok t) :
    Tame ((M + 1) * 2 ^ 32) (intoChromatic .time t) := by
  induction h generalizing t with
  | base h => exact tsummand1_tame (.base h) ht
  | add _ hs ih =>
    rw [ps_add] at ht
    obtain ⟨x, hx, ht⟩ := bind_eq_ok ht
    obtain ⟨y, hy, ht⟩ := bind_eq_ok ht
    cases ht
    exact tame_add (ih hx) (tsummand1_tame hs hy)

theorem template1_tame {M : Nat} {e : Expr} (h : Template1 M e) {t : ChromaticTerm} (ht : parseBody e = .ok t) :
    Tame ((M + 1) * 2 ^ 32) t := by
  obtain ⟨m, hm⟩ := template1_err h
  rw [parseBody, hm] at ht
  obtain ⟨s, hs, ht⟩ := bind_eq_ok ht
  cases ht
  exact template1_scalar_tame h hs

theorem template_tame {M : Nat} {e : Expr} (h : Template M e) {t : ChromaticTerm} (ht : parseExpression e = .ok t) :
    Tame ((M + 1) * 2 ^ 32) t := by
  induction h generalizing t with
  | base h => exact tsummand_tame (.base h) ht
  | add _ hs ih =>
    rw [pe_add] at ht
    obtain ⟨x, hx, ht⟩ := bind_eq_ok ht
    obtain ⟨y, hy, ht⟩ := bind_eq_ok ht
    cases ht
    exact tame_add (ih hx) (tsummand_tame hs hy)

/-- The body of the template is read by the two-dimensional parser. -/
theorem template_expr {M : Nat} (hM : M < 2 ^ 128) {e : Expr} (h : Template M e) {t : ChromaticTerm} (ht : parseBody e = .ok t) :
    parseExpression e = .ok t := by
  obtain ⟨⟨w, hw⟩, h1, _⟩ := template_weight h ⟨fun _ => 0, 0, 0⟩
  obtain ⟨u, hu⟩ := weight_accepted hM hw h1
  rw [parseBody, hu] at ht
  cases ht
  exact hu

/-! ### Ranges -/

theorem parseBound_lt {what s : Str} {n : Nat} (h : parseBound what s = .ok n) : n < 2 ^ 32 := by
  unfold parseBound at h
  split at h
  · rename_i m hm
    cases h
    unfold parseUInt at hm
    simp only at hm
    split at hm
    · cases hm
    · split at hm
      · split at hm
        · cases hm; assumption
        · cases hm
      · cases hm
  · cases h

theorem attr_wf {cc : CharClass} {a : Attr} {n : Str} {r : ComponentRange} (h : parseComponentAttr cc a = .ok (some (n, r))) :
    r.min ≤ r.max ∧ r.max < 2 ^ 32 := by
  unfold parseComponentAttr at h
  split at h
  · split at h
    · cases h
    · split at h
      · cases h
      · obtain ⟨lo, _, h⟩ := bind_eq_ok h
        obtain ⟨hi, hhi, h⟩ := bind_eq_ok h
        split at h
        · cases h
        · cases h
          exact ⟨by simp only; omega, parseBound_lt hhi⟩
  · cases h

theorem annotation_wf {cc : CharClass} {l : List Attr} {x : Str} {r : ComponentRange} (h : lastAnnotation cc x l = some r) :
    r.min ≤ r.max ∧ r.max < 2 ^ 32 := by
  induction l with
  | nil => cases h
  | cons a l ih =>
    rw [lastAnnotation] at h
    split at h
    · cases h; rename_i hr; exact ih hr
    · split at h
      · rename_i n r' ha
        split at h
        · cases h; exact attr_wf ha
        · cases h
      · cases h

theorem low_le_high (cc : CharClass) (f g : ImplFn) (x : Str) : lowOf cc f g x ≤ highOf cc f g x := by
  unfold lowOf highOf
  split <;> rename_i h1 h2
  · decide
  · exact (annotation_wf h1).1
  · exact (annotation_wf h2).1
  · have a := (annotation_wf h1).1
    have b := (annotation_wf h2).1
    omega

theorem high_lt (cc : CharClass) (f g : ImplFn) (x : Str) : highOf cc f g x < 2 ^ 32 := by
  unfold highOf
  split <;> rename_i h1 h2
  · decide
  · exact (annotation_wf h1).2
  · exact (annotation_wf h2).2
  · have a := (annotation_wf h1).2
    have b := (annotation_wf h2).2
    omega

theorem rangeOf_extracted {cc : CharClass} {p : Str} {f : ImplFn} {a : ChromaticExtrinsic} (ha : Extracted cc p f a) (d : Dimension) (x : Str) :
    rangeOf (some (inDim d a)) x = lastAnnotation cc x f.attrs := by
  obtain ⟨_, _, _, _, hr⟩ := ha
  rw [← C47_last_wins cc hr x, rangeOf, Option.map_some, rangeGet_getD]
  rfl

theorem minInst_low {cc : CharClass} {p q : Str} {f g : ImplFn} {a c : ChromaticExtrinsic} (ha : Extracted cc p f a)
    (hc : Extracted cc q g c) (d : Dimension) (x : Str) : MinInst (some (inDim d a)) (some (inDim d c)) x (lowOf cc f g x) := by
  simp only [MinInst, annotated_iff, rangeOf_extracted ha, rangeOf_extracted hc]
  unfold lowOf
  split <;> rename_i h1 h2 <;> rw [h1, h2]
  · simp
  · right; simp
  · right; simp
  · rename_i r s
    right
    rcases Nat.le_total r.min s.min with h | h
    · exact ⟨⟨r, .inl rfl, by omega⟩, by rintro _ (e | e) <;> cases e <;> omega⟩
    · exact ⟨⟨s, .inr rfl, by omega⟩, by rintro _ (e | e) <;> cases e <;> omega⟩

theorem maxInst_high {cc : CharClass} {p q : Str} {f g : ImplFn} {a c : ChromaticExtrinsic} (ha : Extracted cc p f a)
    (hc : Extracted cc q g c) (d : Dimension) (x : Str) : MaxInst (some (inDim d a)) (some (inDim d c)) x (highOf cc f g x) := by
  simp only [MaxInst, annotated_iff, rangeOf_extracted ha, rangeOf_extracted hc]
  unfold highOf
  split <;> rename_i h1 h2 <;> rw [h1, h2]
  · simp
  · right; simp
  · right; simp
  · rename_i r s
    right
    rcases Nat.le_total r.max s.max with h | h
    · exact ⟨⟨s, .inr rfl, by omega⟩, by rintro _ (e | e) <;> cases e <;> omega⟩
    · exact ⟨⟨r, .inl rfl, by omega⟩, by rintro _ (e | e) <;> cases e <;> omega⟩

/-! ### The runtime -/

theorem env_costs {rt : Runtime} (h1 : rt.read = 25000000) (h2 : rt.write = 100000000) (d : Dimension) : Costs d (rt.env d) := by
  constructor
  · cases d
    · exact h1
    · rfl
  · cases d
    · exact h2
    · rfl

theorem env_comp (rt : Runtime) (d : Dimension) {x : Str} (h1 : x ≠ str% "READ") (h2 : x ≠ str% "WRITE") : rt.env d x = rt.comp x := by
  unfold Runtime.env
  rw [if_neg h1, if_neg h2]

theorem env_le {rt : Runtime} (h1 : rt.read ≤ 2 ^ 32) (h2 : rt.write ≤ 2 ^ 32) (h3 : ∀ x, rt.comp x ≤ 2 ^ 32) (d : Dimension) (x : Str) :
    rt.env d x ≤ 2 ^ 32 := by
  unfold Runtime.env
  split
  · cases d
    · exact h1
    · exact Nat.zero_le _
  · split
    · cases d
      · exact h2
      · exact Nat.zero_le _
    · exact h3 x

/-- A template body: the runtime charges the value of the extracted equation, up to `u64::MAX`. -/
theorem template_charges {cc : CharClass} {p : Str} {f : ImplFn} {a : ChromaticExtrinsic} (ha : Extracted cc p f a) {e : Expr}
    (hs : f.stmts = [.expr e]) (ht : Template u64Max e) (d : Dimension) {rt : Runtime} (hrt : ∀ x, rt.comp x ≤ u64Max) :
    Charges rt d e (min (denote (rt.env d) (inDim d a).term) u64Max) := by
  obtain ⟨_, _, _, ⟨e', he, hp⟩, _⟩ := ha
  rw [hs] at he
  cases he
  obtain ⟨t, h1, h2⟩ := C44_template (by decide) ht
  rw [hp] at h1
  cases h1
  obtain ⟨w, hw, hc⟩ := h2 rt hrt
  refine ⟨w, hw, ?_⟩
  rw [hc d, ← denote_project]
  rfl

theorem charges_unique {rt : Runtime} {d : Dimension} {e : Expr} {n m : Nat} (h : Charges rt d e n) (h' : Charges rt d e m) : n = m := by
  obtain ⟨w, h1, rfl⟩ := h
  obtain ⟨v, h2, rfl⟩ := h'
  rw [h1] at h2
  cases h2
  rfl

theorem template_tame' {cc : CharClass} {p : Str} {f : ImplFn} {a : ChromaticExtrinsic} (ha : Extracted cc p f a) {e : Expr}
    (hs : f.stmts = [.expr e]) (ht : Template u64Max e) : Tame (2 ^ 96) a.term := by
  obtain ⟨_, _, _, ⟨e', he, hp⟩, _⟩ := ha
  rw [hs] at he
  cases he
  exact template_tame ht (template_expr (by decide) ht hp)

/-- The worst case over a box of parameters, for equations that are tame: no runtime with parameters in the box sees a larger change than the one
reported, and one of them sees exactly it. -/
theorem worst_case_of_tame {a c : ChromaticExtrinsic} {low high : Str → Nat} (b : Build) (ho : HashOrder) (params : CompareParams)
    (hm : params.method = .guessWorst ∨ params.method = .exactWorst)
    (hmin : ∀ x, MinInst (some (inDim params.unit a)) (some (inDim params.unit c)) x (low x))
    (hmax : ∀ x, MaxInst (some (inDim params.unit a)) (some (inDim params.unit c)) x (high x))
    (hle : ∀ x, low x ≤ high x) (hlt : ∀ x, high x < 2 ^ 32) (ta : Tame (2 ^ 96) a.term) (tc : Tame (2 ^ 96) c.term)
    (htop : ∀ v, v = a ∨ v = c → denote (Runtime.env ⟨high, 25000000, 100000000⟩ params.unit) (inDim params.unit v).term < 2 ^ 53)
    (r : TermChange) (h : compareExtrinsics b ho (some (inDim params.unit a)) (some (inDim params.unit c)) params = .ok r) :
    (∀ rt : Runtime, rt.read = 25000000 → rt.write = 100000000 → (∀ x, low x ≤ rt.comp x ∧ rt.comp x ≤ high x) →
      denote (rt.env params.unit) (inDim params.unit a).term < 2 ^ 53 ∧ denote (rt.env params.unit) (inDim params.unit c).term < 2 ^ 53 ∧
      rank (percent (denote (rt.env params.unit) (inDim params.unit a).term) (denote (rt.env params.unit) (inDim params.unit c).term))
        ≤ rank r.percent) ∧
    ∃ rt : Runtime, rt.read = 25000000 ∧ rt.write = 100000000 ∧ (∀ x, low x ≤ rt.comp x ∧ rt.comp x ≤ high x) ∧
      r.oldV = some (denote (rt.env params.unit) (inDim params.unit a).term) ∧
      r.newV = some (denote (rt.env params.unit) (inDim params.unit c).term) ∧
      r.percent = percent (denote (rt.env params.unit) (inDim params.unit a).term) (denote (rt.env params.unit) (inDim params.unit c).term) := by
  let top : Runtime := ⟨high, 25000000, 100000000⟩
  let bot : Runtime := ⟨low, 25000000, 100000000⟩
  have topLe : ∀ x, top.comp x ≤ 2 ^ 32 := fun x => (hlt x).le
  have hbox : Box params.unit (inDim params.unit a) (inDim params.unit c) (bot.env params.unit) (top.env params.unit) := by
    refine ⟨fun x hx => ?_, fun x hx => ?_, env_costs rfl rfl _, env_costs rfl rfl _⟩
    · rw [env_comp _ _ hx.2.1 hx.2.2]; exact hmin x
    · rw [env_comp _ _ hx.2.1 hx.2.2]; exact hmax x
  have mod : ∀ v, v = a ∨ v = c → Moderate (top.env params.unit) (inDim params.unit v).term := by
    intro v hv
    have h2 := htop v hv
    have tv : Tame (2 ^ 96) v.term := by rcases hv with rfl | rfl <;> assumption
    refine ⟨fun u hu => ?_, h2⟩
    have := (tv params.unit).2 _ (env_le (rt := top) (by simp [top]) (by simp [top]) topLe params.unit) u hu
    refine Nat.lt_of_le_of_lt this ?_
    rw [Nat.max_lt]
    exact ⟨by decide, Nat.lt_trans h2 (by decide)⟩
  have mo := mod a (.inl rfl)
  have mn := mod c (.inr rfl)
  have inb : ∀ rt : Runtime, rt.read = 25000000 → rt.write = 100000000 → (∀ x, low x ≤ rt.comp x ∧ rt.comp x ≤ high x) →
      InBox params.unit (inDim params.unit a) (inDim params.unit c) (bot.env params.unit) (top.env params.unit) (rt.env params.unit) := by
    intro rt h1 h2 h3
    refine ⟨env_costs h1 h2 _, fun x hx => ?_⟩
    rw [env_comp _ _ hx.2.1 hx.2.2, env_comp _ _ hx.2.1 hx.2.2, env_comp _ _ hx.2.1 hx.2.2]
    exact h3 x
  have below : ∀ rt : Runtime, rt.read = 25000000 → rt.write = 100000000 → (∀ x, low x ≤ rt.comp x ∧ rt.comp x ≤ high x) →
      ∀ v, v = a ∨ v = c → denote (rt.env params.unit) (inDim params.unit v).term < 2 ^ 53 := by
    intro rt h1 h2 h3 v hv
    have he : inDim params.unit v = inDim params.unit a ∨ inDim params.unit v = inDim params.unit c := by
      rcases hv with rfl | rfl <;> simp
    exact Nat.lt_of_le_of_lt (C07_monotone _ _ _ fun x hx => (inBox_le he hbox (inb rt h1 h2 h3) x hx).2) (mod v hv).2
  refine ⟨fun rt h1 h2 h3 => ⟨below rt h1 h2 h3 a (.inl rfl), below rt h1 h2 h3 c (.inr rfl), ?_⟩, ?_⟩
  · exact C24_worst_case b ho _ _ params hm r h (ta params.unit).1 (tc params.unit).1 _ _ hbox mo mn _ (inb rt h1 h2 h3)
  · obtain ⟨hcor, ⟨_, ⟨o, ho', eo'⟩, ⟨n, hn', en'⟩, hp⟩, _⟩ := C25_reported_is_corner b ho _ _ params r h
    let at' : Str → Nat := fun x =>
      if low x ≤ assignment r.scope x ∧ assignment r.scope x ≤ high x then assignment r.scope x else low x
    let rt : Runtime := ⟨at', 25000000, 100000000⟩
    have hrt : ∀ x, low x ≤ rt.comp x ∧ rt.comp x ≤ high x := by
      intro x
      by_cases hx : low x ≤ assignment r.scope x ∧ assignment r.scope x ≤ high x
      · simp only [rt, at', if_pos hx]; exact hx
      · simp only [rt, at', if_neg hx]; exact ⟨Nat.le_refl _, hle x⟩
    have same : ∀ e : SimpleExtrinsic, e = inDim params.unit a ∨ e = inDim params.unit c → ∀ x, Occurs x e.term →
        assignment r.scope x = rt.env params.unit x := by
      intro e he x hx
      obtain ⟨_, hr, hw, hcomp, _⟩ := hcor
      have hcost := env_costs (rt := rt) rfl rfl params.unit
      rcases component_or he hx with h' | h' | h'
      · obtain ⟨m, hm', hlh⟩ := hcomp x h'
        have e1 : assignment r.scope x = m := by rw [assignment, hm']
        have e2 : m = low x ∨ m = high x := by
          rcases hlh with hlh | hlh
          · exact .inl (minInst_unique (by rcases hm with e | e <;> rw [e] at hlh <;> exact hlh) (hmin x))
          · exact .inr (maxInst_unique (by rcases hm with e | e <;> rw [e] at hlh <;> exact hlh) (hmax x))
        have e3 : low x ≤ assignment r.scope x ∧ assignment r.scope x ≤ high x := by
          have := hle x
          omega
        rw [env_comp _ _ h'.2.1 h'.2.2]
        simp only [rt, at', if_pos e3]
      · subst h'; rw [hcost.1, assignment, hr]
      · subst h'; rw [hcost.2, assignment, hw]
    have val : ∀ e : SimpleExtrinsic, e = inDim params.unit a ∨ e = inDim params.unit c →
        Moderate (top.env params.unit) e.term → ∀ v, eval b e.term r.scope = .ok v → v = denote (rt.env params.unit) e.term := by
      intro e he hmod v hv
      have hfit : Fits (assignment r.scope) e.term := fits_mono (fun x hx => by
        rw [same e he x hx]; exact (inBox_le he hbox (inb rt rfl rfl hrt) x hx).2) hmod.1
      have := C01_eval_exact b r.scope (assignment r.scope) e.term
        (corner_assigns hcor (by rcases he with rfl | rfl <;> simp)) hfit
      rw [hv] at this
      injection this with this
      rw [this]
      exact denote_congr fun x hx => same e he x hx
    have v1 := val _ (.inl rfl) mo o eo'
    have v2 := val _ (.inr rfl) mn n en'
    refine ⟨rt, rfl, rfl, hrt, by rw [ho', v1], by rw [hn', v2], ?_⟩
    rw [hp, ho', hn', v1, v2]; rfl

/-- C68: for a call whose two versions are generated weight functions, read from their source, the worst-case methods report a change that

* no runtime exceeds which calls the function with parameters in the annotated ranges, and
* some such runtime attains: the two reported values are what it charges.

The charge for the highest parameters must be below 2^53 (for time: about two and a half hours). -/
theorem C68_source_worst_case (cc : CharClass) {p q : Str} {f g : ImplFn} {a c : ChromaticExtrinsic} (ha : Extracted cc p f a)
    (hc : Extracted cc q g c) {eo en : Expr} (sf : f.stmts = [.expr eo]) (sg : g.stmts = [.expr en])
    (to' : Template u64Max eo) (tn : Template u64Max en) (b : Build) (ho : HashOrder) (params : CompareParams)
    (hm : params.method = .guessWorst ∨ params.method = .exactWorst)
    (htop : ∀ e n, e = eo ∨ e = en → Charges (topRuntime cc f g) params.unit e n → n < 2 ^ 53)
    (r : TermChange) (h : compareExtrinsics b ho (some (inDim params.unit a)) (some (inDim params.unit c)) params = .ok r) :
    WorstOf cc f g params.unit eo en r := by
  have hM : u64Max = 2 ^ 64 - 1 := rfl
  have topLe : ∀ x, highOf cc f g x ≤ u64Max := fun x => Nat.le_trans (high_lt cc f g x).le (by decide)
  have top : ∀ v, v = a ∨ v = c → denote ((topRuntime cc f g).env params.unit) (inDim params.unit v).term < 2 ^ 53 := by
    rintro v (rfl | rfl)
    · have := htop eo _ (.inl rfl) (template_charges ha sf to' params.unit topLe)
      omega
    · have := htop en _ (.inr rfl) (template_charges hc sg tn params.unit topLe)
      omega
  obtain ⟨h1, rt, r1, r2, r3, ro, rn, rp⟩ := worst_case_of_tame b ho params hm (minInst_low ha hc _) (maxInst_high ha hc _) (low_le_high cc f g)
    (high_lt cc f g) (template_tame' ha sf to') (template_tame' hc sg tn) top r h
  have charge : ∀ rt, Admissible cc f g rt → Charges rt params.unit eo (denote (rt.env params.unit) (inDim params.unit a).term) ∧
      Charges rt params.unit en (denote (rt.env params.unit) (inDim params.unit c).term) := by
    intro rt hrt
    obtain ⟨l1, l2, _⟩ := h1 rt hrt.1 hrt.2.1 hrt.2.2
    have k1 := template_charges ha sf to' params.unit (rt := rt) fun x => Nat.le_trans (hrt.2.2 x).2 (topLe x)
    have k2 := template_charges hc sg tn params.unit (rt := rt) fun x => Nat.le_trans (hrt.2.2 x).2 (topLe x)
    rw [Nat.min_eq_left (by omega)] at k1 k2
    exact ⟨k1, k2⟩
  refine ⟨fun rt hrt => ⟨_, _, (charge rt hrt).1, (charge rt hrt).2, (h1 rt hrt.1 hrt.2.1 hrt.2.2).2.2⟩, ?_⟩
  exact ⟨rt, _, _, ⟨r1, r2, r3⟩, (charge rt ⟨r1, r2, r3⟩).1, (charge rt ⟨r1, r2, r3⟩).2, ro, rn, rp⟩

/-! ### From the repository to the report -/

theorem parseAll_mem {f : Path → Res (List ChromaticExtrinsic)} {l : List Path} {r : List ChromaticExtrinsic}
    (h : parseAll f l = .ok r ∨ tryParseAll f l = .ok r) {x : ChromaticExtrinsic} (hx : x ∈ r) : ∃ p ∈ l, ∃ y, f p = .ok y ∧ x ∈ y := by
  have h' : tryParseAll f l = .ok r := h.elim (C49_no_difference f l r) id
  clear h
  induction l generalizing r with
  | nil => cases h'; cases hx
  | cons p l ih =>
    rw [tryParseAll] at h'
    cases hp : f p with
    | err m =>
      rw [hp] at h'
      obtain ⟨a', ha, h'⟩ := bind_eq_ok h'
      obtain ⟨r', hr, h'⟩ := bind_eq_ok h'
      cases ha
      cases h'
      obtain ⟨q, hq, h⟩ := ih hx hr
      exact ⟨q, List.mem_cons_of_mem _ hq, h⟩
    | ok a =>
      rw [hp] at h'
      obtain ⟨a', ha, h'⟩ := bind_eq_ok h'
      obtain ⟨r', hr, h'⟩ := bind_eq_ok h'
      cases ha
      cases h'
      rcases List.mem_append.1 hx with hx | hx
      · exact ⟨p, List.mem_cons_self, a, hp, hx⟩
      · obtain ⟨q, hq, h⟩ := ih hx hr
        exact ⟨q, List.mem_cons_of_mem _ hq, h⟩
    | panic => rw [hp] at h'; cases h'
    | diverge => rw [hp] at h'; cases h'

/-- Every call read from files has its source in one of them. -/
theorem source_of {W : World} {env : Env} {repo : Path} {ign : Bool} {s : W.State} {files : List Path} {exts : List ChromaticExtrinsic}
    (h : ParsedAs W env repo ign s files exts) {x : ChromaticExtrinsic} (hx : x ∈ exts) :
    ∃ f, Source env (W.fs s) repo files x.pallet x.name f ∧ Extracted env.cc x.pallet f x := by
  obtain ⟨p, hp, y, hy, hxy⟩ := parseAll_mem (f := parseFileInRepo env (W.fs s) repo)
    ((parsedAs_iff.1 h).elim (fun h => .inr h.2) (fun h => .inl h.2)) hx
  unfold parseFileInRepo at hy
  obtain ⟨content, hc, hy⟩ := bind_eq_ok hy
  obtain ⟨name, hn, hy⟩ := bind_eq_ok hy
  have hy' : parseContent env.syn env.cc name content = .ok y := by
    revert hy
    cases parseContent env.syn env.cc name content <;> simp [withFile]
  obtain ⟨items, pre, i, post, h1, h2, ⟨ty, its, rfl, h3, _, h4⟩, _⟩ := C45_content hy'
  obtain ⟨f, hf, hfx⟩ := forall₂_mem_right h4 hxy
  have hpal : x.pallet = name := hfx.2.2.1
  refine ⟨f, ⟨p, hp, by rw [hpal]; exact hn, content, items, ty, its, ?_, h1, by rw [h2]; simp, h3, hf, hfx.2.1.symm⟩, by rw [hpal]; exact hfx⟩
  unfold readFile at hc
  split at hc
  · cases hc; assumption
  · cases hc

/-- C68: the whole way.  If the comparison of two revisions reports a call that exists in both, then there are two functions of that name in a
file of that name, one among the files as checked out for the old revision and one as checked out for the new, and if both are
generated weight functions, the report is their worst case. -/
theorem C68_commits_worst_case {W : World} (b : Build) (ho : HashOrder) (rx : RegexEngine) (env : Env) (repo : Path) (old new : Str)
    (params : CompareParams) (filter : FilterParams) (pattern : Str) (maxFiles : Nat) (s s' : Run W) (diff : List ExtrinsicDiff)
    (h : compareCommits b ho rx env repo old new params filter pattern maxFiles s = (.ok diff, s'))
    (hm : params.method = .guessWorst ∨ params.method = .exactWorst)
    (e : ExtrinsicDiff) (he : e ∈ diff) (r : TermChange) (hr : e.term = some r) (hch : r.change = .changed ∨ r.change = .unchanged) :
    ∃ G1 s1 files1 G2 s2 files2 f g,
      CheckedOut W old params.shouldPull params.gitForce s.state G1 s1 ∧ Listed W s1 repo pattern maxFiles files1 ∧
      CheckedOut W new params.shouldPull params.gitForce s1 G2 s2 ∧ Listed W s2 repo pattern maxFiles files2 ∧
      Source env (W.fs s1) repo files1 e.file e.name f ∧ Source env (W.fs s2) repo files2 e.file e.name g ∧
      ∀ eo en, f.stmts = [.expr eo] → g.stmts = [.expr en] → Template u64Max eo → Template u64Max en →
        (∀ x n, x = eo ∨ x = en → Charges (topRuntime env.cc f g) params.unit x n → n < 2 ^ 53) →
        WorstOf env.cc f g params.unit eo en r := by
  obtain ⟨_, ps, G1, s1, files1, olds, G2, s2, files2, news, _, c1, l1, p1, c2, l2, p2, hcf, _, _⟩ :=
    (C41_compare_commits b ho rx env repo old new params filter pattern maxFiles s s' diff).1 h
  obtain ⟨o, n, ho', hn', hent⟩ := C33_right_pair b ho rx olds news params filter diff hcf e he
  have hcmp : compareExtrinsics b ho (o.map (inDim params.unit)) (n.map (inDim params.unit)) params = .ok r := by
    rcases hent with ⟨m, _, hc⟩ | ⟨r', hc, ⟨_, hc'⟩ | ⟨_, m, hc'⟩⟩
    · rw [ExtrinsicDiff.term, hc] at hr; cases hr
    · rw [ExtrinsicDiff.term, hc'] at hr; cases hr; exact hc
    · rw [ExtrinsicDiff.term, hc'] at hr; cases hr; exact hc
  obtain ⟨k1, k2, _⟩ := C27_kinds b ho _ _ params r hcmp
  cases o with
  | none => rw [k1.2 rfl] at hch; rcases hch with hch | hch <;> cases hch
  | some x =>
    cases n with
    | none => rw [k2.2 rfl] at hch; rcases hch with hch | hch <;> cases hch
    | some y =>
      obtain ⟨⟨x1, x2⟩, l, l', hl, _⟩ := ho'
      obtain ⟨⟨y1, y2⟩, m, m', hm', _⟩ := hn'
      obtain ⟨f, hf, hfx⟩ := source_of p1 (x := x) (by rw [hl]; simp)
      obtain ⟨g, hg, hgy⟩ := source_of p2 (x := y) (by rw [hm']; simp)
      rw [x1, x2] at hf
      rw [y1, y2] at hg
      exact ⟨G1, s1, files1, G2, s2, files2, f, g, c1, l1, c2, l2, hf, hg, fun eo en sf sg te tn htop =>
        C68_source_worst_case env.cc hfx hgy sf sg te tn b ho params hm htop r hcmp⟩

/-! ### Examples -/

private def lit (s : Str) : Expr := .lit (.int s)
private def parts (a c : Expr) : Expr := .call (.path [str% "Weight", str% "from_parts"]) [a, c] false
private def plus (a c : Expr) : Expr := .methodCall a (str% "saturating_add") [c] false

/-- `Weight::from_parts(1000, 20).saturating_add(Weight::from_parts(slope, 3).saturating_mul(n.into()))`
`.saturating_add(T::DbWeight::get().reads(1))` -/
private def body (slope : Str) : Expr :=
  plus (plus (parts (lit (str% "1000")) (lit (str% "20")))
      (.methodCall (parts (lit slope) (lit (str% "3"))) (str% "saturating_mul") [.methodCall (.path [str% "n"]) (str% "into") [] false] false))
    (.methodCall (.call (.path [str% "T", str% "DbWeight", str% "get"]) [] false) (str% "reads") [lit (str% "1")] false)

/-- A weight function with one annotated component. -/
private def genFn (slope : Str) (lo hi : Nat) : ImplFn :=
  { name := str% "transfer", attrs := [.nameValue [str% "doc"] (rangeLine (str% "n") lo hi)],
    output := some (.path false [str% "Weight"]), stmts := [.expr (body slope)] }

private def v1 : ImplFn := genFn (str% "7000000") 1 10
private def v2 : ImplFn := genFn (str% "9000000") 2 20

private theorem body_template {d : Str} {n : Nat} (h : readNat d = some n) (hn : n ≤ u64Max) : Template u64Max (body d) :=
  .add (.add (.base (.parts (by decide) (.lit (n := 1000) (by decide) (by decide)) (.lit (n := 20) (by decide) (by decide))))
      (.slope (.parts (by decide) (.lit h hn) (.lit (n := 3) (by decide) (by decide))) (.into (.path (by decide) (by decide)))))
    (.reads (by decide) (.lit (.lit (n := 1) (by decide) (by decide))))

/-- The environment of the run below: the revision `v1` contains the first version of the function, every other the second. -/
private def srcEnv : Env := ⟨fun c => .ok [.impl (.path false [str% "SubstrateWeight"]) [.fn (if c = str% "v1" then v1 else v2)]], asciiClass⟩

private def srcRun : Res (List ExtrinsicDiff) × Run exWorld :=
  compareCommits (W := exWorld) .release idOrder exRegex srcEnv [.normal (str% "r")] (str% "v1") (str% "v2") ⟨.guessWorst, .time, false, false, false, false⟩
    exFilter (str% "*") 2 ⟨str% "start", []⟩

private theorem lt_of_charge {rt : Runtime} {x : Expr} {v w : Weight} {d : Dimension} {k : Nat}
    (hw : weight (saturating u64Max) rt x = some w) (hv : weight (saturating u64Max) rt x = some v) (h : coord d w < k) : coord d v < k := by
  rw [hw] at hv; cases hv; exact h

/-- At `n = 20` the old version costs 165001000 and the new one 205001000. -/
example : srcRun.1.map (List.map exShow) = .ok [
    ⟨str% "a.rs", str% "transfer", some 165001000, some 205001000, some .changed, false⟩,
    ⟨str% "w.rs", str% "transfer", some 165001000, some 205001000, some .changed, false⟩] := by decide +kernel

example : lowOf asciiClass v1 v2 (str% "n") = 1 ∧ highOf asciiClass v1 v2 (str% "n") = 20 := by decide

private theorem top_charge (d : Dimension) (x : Expr) (n : Nat) (hx : x = body (str% "7000000") ∨ x = body (str% "9000000"))
    (h : Charges (topRuntime asciiClass v1 v2) d x n) : n < 2 ^ 53 := by
  obtain ⟨w, hw, rfl⟩ := h
  rcases hx with rfl | rfl <;> cases d
  · exact lt_of_charge (w := ⟨165001000, 80⟩) (by decide) hw (by decide)
  · exact lt_of_charge (w := ⟨165001000, 80⟩) (by decide) hw (by decide)
  · exact lt_of_charge (w := ⟨205001000, 80⟩) (by decide) hw (by decide)
  · exact lt_of_charge (w := ⟨205001000, 80⟩) (by decide) hw (by decide)

/-- What is extracted from the two versions. -/
private def got (f : ImplFn) : ChromaticExtrinsic :=
  match handleMethod asciiClass f with
  | .ok (n, t, r) => ⟨n, str% "a.rs", t, r⟩
  | _ => ⟨[], [], .scalar 0, none⟩

/-- The hypotheses of C68 hold for the two versions: the report exists, and it is the worst case. -/
example : ∃ r, compareExtrinsics .release idOrder (some (inDim .time (got v1))) (some (inDim .time (got v2)))
      ⟨.guessWorst, .time, false, false, false, false⟩ = .ok r ∧ r.oldV = some 165001000 ∧ r.newV = some 205001000 ∧
    WorstOf asciiClass v1 v2 .time (body (str% "7000000")) (body (str% "9000000")) r := by
  have hok : (compareExtrinsics .release idOrder (some (inDim .time (got v1))) (some (inDim .time (got v2)))
      ⟨.guessWorst, .time, false, false, false, false⟩).map (fun r => (r.oldV, r.newV)) = .ok (some 165001000, some 205001000) := by decide +kernel
  cases h : compareExtrinsics .release idOrder (some (inDim .time (got v1))) (some (inDim .time (got v2)))
      ⟨.guessWorst, .time, false, false, false, false⟩ with
  | ok r =>
    rw [h] at hok
    injection hok with hok
    injection hok with h1 h2
    exact ⟨r, rfl, h1, h2, C68_source_worst_case asciiClass (a := got v1) (c := got v2) (p := str% "a.rs") (q := str% "a.rs")
      ((C46_method _ _ _ _ _ _).1 rfl) ((C46_method _ _ _ _ _ _).1 rfl) rfl rfl (body_template (n := 7000000) (by decide) (by decide))
      (body_template (n := 9000000) (by decide) (by decide)) .release idOrder _ (.inl rfl) (fun x n hx hc => top_charge .time x n hx hc) r h⟩
  | err m => rw [h] at hok; cases hok
  | panic => rw [h] at hok; cases hok
  | diverge => rw [h] at hok; cases hok

end Swc
