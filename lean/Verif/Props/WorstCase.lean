/-
C24: the worst-case methods find the worst case of multi-affine equations (`core/src/lib.rs:491-569`, README "Compare Method").
-/
import Verif.Props.CompareExtrinsics
import Verif.Props.Percent

namespace Swc

open F64

namespace Spec

/-- Affine in every component: no component occurs in both factors of a product.  (Storage costs are constants.) -/
inductive MultiAffine : SimpleTerm → Prop where
  | value {n} : MultiAffine (.value n)
  | scalar {n} : MultiAffine (.scalar n)
  | var {x} : MultiAffine (.var x)
  | add {l r} : MultiAffine l → MultiAffine r → MultiAffine (.add l r)
  | mul {l r} : MultiAffine l → MultiAffine r →
      (∀ x, Occurs x l → Occurs x r → x = str% "READ" ∨ x = str% "WRITE") → MultiAffine (.mul l r)

/-- `ρ` gives the storage accesses their cost. -/
def Costs (d : Dimension) (ρ : Str → Nat) : Prop := ρ (str% "READ") = readCost d ∧ ρ (str% "WRITE") = writeCost d

end Spec

open Spec Term

/-- Change the value of one variable. -/
def upd (ρ : Str → Nat) (x : Str) (v : Nat) : Str → Nat := fun y => if y = x then v else ρ y

theorem denote_upd_absent {ρ : Str → Nat} {x : Str} {v : Nat} {t : SimpleTerm} (h : ¬ Occurs x t) : denote (upd ρ x v) t = denote ρ t := by
  induction t with
  | value => rfl
  | scalar => rfl
  | var y =>
    rw [denote, denote, upd, if_neg]
    rintro rfl
    exact h .here
  | add l r hl hr => rw [denote, denote, hl fun h' => h (.addL h'), hr fun h' => h (.addR h')]
  | mul l r hl hr => rw [denote, denote, hl fun h' => h (.mulL h'), hr fun h' => h (.mulR h')]

theorem affine_in {ρ : Str → Nat} {x : Str} (h1 : x ≠ str% "READ") (h2 : x ≠ str% "WRITE") {t : SimpleTerm} (h : MultiAffine t) :
    ∃ A B, ∀ v, denote (upd ρ x v) t = A + B * v := by
  induction h with
  | @value n => exact ⟨n, 0, fun v => by simp [denote]⟩
  | @scalar n => exact ⟨n, 0, fun v => by simp [denote]⟩
  | @var y =>
    by_cases hy : y = x
    · exact ⟨0, 1, fun v => by simp [denote, upd, hy]⟩
    · exact ⟨ρ y, 0, fun v => by simp [denote, upd, hy]⟩
  | add _ _ ih1 ih2 =>
    obtain ⟨A, B, e1⟩ := ih1
    obtain ⟨C, D, e2⟩ := ih2
    exact ⟨A + C, B + D, fun v => by rw [denote, e1, e2]; ring⟩
  | @mul l r _ _ hd ih1 ih2 =>
    obtain ⟨A, B, e1⟩ := ih1
    obtain ⟨C, D, e2⟩ := ih2
    by_cases hl : Occurs x l
    · have hr : ¬ Occurs x r := fun hr => by
        rcases hd x hl hr with h | h
        · exact h1 h
        · exact h2 h
      exact ⟨A * denote ρ r, B * denote ρ r, fun v => by rw [denote, e1, denote_upd_absent hr]; ring⟩
    · exact ⟨denote ρ l * C, denote ρ l * D, fun v => by rw [denote, e2, denote_upd_absent hl]; ring⟩

/-- Along one component the ratio of two affine functions is largest at an end. -/
theorem ratio_end {a b c d l v h : Nat} (h1 : l ≤ v) (h2 : v ≤ h) :
    (a + b * v) * (c + d * l) ≤ (a + b * l) * (c + d * v) ∨ (a + b * v) * (c + d * h) ≤ (a + b * h) * (c + d * v) := by
  rcases Nat.le_total (b * c) (a * d) with hc | hc
  · left
    obtain ⟨k, rfl⟩ := Nat.exists_eq_add_of_le h1
    nlinarith [Nat.mul_le_mul_right k hc]
  · right
    obtain ⟨k, rfl⟩ := Nat.exists_eq_add_of_le h2
    nlinarith [Nat.mul_le_mul_right k hc]

theorem upd_self (ρ : Str → Nat) (x : Str) : upd ρ x (ρ x) = ρ := by
  funext y
  unfold upd
  split
  · rename_i h; rw [h]
  · rfl

/-- The change from `o` to `n` is at most the change from `o'` to `n'`: the ratio is at most as large, or a weight appears where there
was none, or there is nothing in both cases. -/
def AtMost (o n o' n' : Nat) : Prop := (0 < o ∧ 0 < o' ∧ n * o' ≤ n' * o) ∨ (o' = 0 ∧ 0 < n') ∨ (o = 0 ∧ n = 0 ∧ o' = 0)

theorem atMost_refl (o n : Nat) : AtMost o n o n := by
  unfold AtMost
  rcases Nat.eq_zero_or_pos o with h | h
  · rcases Nat.eq_zero_or_pos n with h' | h'
    · exact .inr (.inr ⟨h, h', h⟩)
    · exact .inr (.inl ⟨h, h'⟩)
  · exact .inl ⟨h, h, Nat.le_refl _⟩

theorem atMost_trans {o n o1 n1 o2 n2 : Nat} (a : AtMost o n o1 n1) (b : AtMost o1 n1 o2 n2) : AtMost o n o2 n2 := by
  rcases a with ⟨h0, h1, a⟩ | ⟨h1, h2⟩ | ⟨h1, h2, h3⟩
  · rcases b with ⟨_, h2, b⟩ | b | ⟨h, _, _⟩
    · refine .inl ⟨h0, h2, ?_⟩
      have h : (n * o2) * o1 ≤ (n2 * o) * o1 := by
        calc (n * o2) * o1 = (n * o1) * o2 := by ring
          _ ≤ (n1 * o) * o2 := Nat.mul_le_mul_right _ a
          _ = (n1 * o2) * o := by ring
          _ ≤ (n2 * o1) * o := Nat.mul_le_mul_right _ b
          _ = (n2 * o) * o1 := by ring
      exact Nat.le_of_mul_le_mul_right h h1
    · exact .inr (.inl b)
    · omega
  · rcases b with ⟨h, _⟩ | b | ⟨_, h, _⟩
    · omega
    · exact .inr (.inl b)
    · omega
  · rcases b with ⟨h, _⟩ | b | ⟨_, _, h⟩
    · omega
    · exact .inr (.inl b)
    · exact .inr (.inr ⟨h1, h2, h⟩)

/-- Along one component the change between two affine functions is largest at an end. -/
theorem atMost_end {a b c d l v h : Nat} (h1 : l ≤ v) (h2 : v ≤ h) :
    AtMost (c + d * v) (a + b * v) (c + d * l) (a + b * l) ∨ AtMost (c + d * v) (a + b * v) (c + d * h) (a + b * h) := by
  rcases Nat.eq_zero_or_pos (c + d * v) with hz | hp
  · have hc : c = 0 := by omega
    have hdv : d * v = 0 := by omega
    subst hc
    rcases Nat.mul_eq_zero.1 hdv with rfl | rfl
    · right
      rcases Nat.eq_zero_or_pos (a + b * v) with hn | hn
      · exact .inr (.inr ⟨by simp, hn, by simp⟩)
      · exact .inr (.inl ⟨by simp, Nat.lt_of_lt_of_le hn (Nat.add_le_add_left (Nat.mul_le_mul_left _ h2) _)⟩)
    · left
      have : l = 0 := by omega
      subst this
      exact atMost_refl _ _
  · have hph : 0 < c + d * h := Nat.lt_of_lt_of_le hp (Nat.add_le_add_left (Nat.mul_le_mul_left _ h2) _)
    rcases Nat.eq_zero_or_pos (c + d * l) with hz | hpl
    · have hc : c = 0 := by omega
      have hdl : d * l = 0 := by omega
      subst hc
      have hl : l = 0 := by
        rcases Nat.mul_eq_zero.1 hdl with rfl | h
        · simp at hp
        · exact h
      subst hl
      rcases Nat.eq_zero_or_pos a with rfl | ha
      · right
        refine .inl ⟨hp, hph, le_of_eq ?_⟩
        ring
      · left
        exact .inr (.inl ⟨by simp, by simpa using ha⟩)
    · rcases ratio_end (a := a) (b := b) (c := c) (d := d) h1 h2 with h | h
      · exact .inl (.inl ⟨hp, hpl, h⟩)
      · exact .inr (.inl ⟨hp, hph, h⟩)

/-- Moving the components of a list to an end of their range does not decrease the change. -/
theorem ratio_corner {old new : SimpleTerm} (ho : MultiAffine old) (hn : MultiAffine new) {lo hi : Str → Nat}
    (l : List Str) (hl : ∀ x ∈ l, x ≠ str% "READ" ∧ x ≠ str% "WRITE") (ρ : Str → Nat)
    (hlo : ∀ x ∈ l, lo x ≤ ρ x) (hhi : ∀ x ∈ l, ρ x ≤ hi x) :
    ∃ σ : Str → Nat, (∀ x ∈ l, σ x = lo x ∨ σ x = hi x) ∧ (∀ x, x ∉ l → σ x = ρ x) ∧
      AtMost (denote ρ old) (denote ρ new) (denote σ old) (denote σ new) := by
  induction l generalizing ρ with
  | nil => exact ⟨ρ, by simp, fun _ _ => rfl, atMost_refl _ _⟩
  | cons x l ih =>
    obtain ⟨hx1, hx2⟩ := hl x List.mem_cons_self
    obtain ⟨A, B, e1⟩ := affine_in (ρ := ρ) hx1 hx2 hn
    obtain ⟨C, D, e2⟩ := affine_in (ρ := ρ) hx1 hx2 ho
    have step : ∃ v, (v = lo x ∨ v = hi x) ∧ lo x ≤ v ∧ v ≤ hi x ∧
        AtMost (denote ρ old) (denote ρ new) (denote (upd ρ x v) old) (denote (upd ρ x v) new) := by
      have en := e1 (ρ x)
      have eo := e2 (ρ x)
      rw [upd_self] at en eo
      have hlx := hlo x List.mem_cons_self
      have hhx := hhi x List.mem_cons_self
      rcases atMost_end (a := A) (b := B) (c := C) (d := D) hlx hhx with h | h
      · exact ⟨lo x, .inl rfl, Nat.le_refl _, Nat.le_trans hlx hhx, by rw [e1, e2, en, eo]; exact h⟩
      · exact ⟨hi x, .inr rfl, Nat.le_trans hlx hhx, Nat.le_refl _, by rw [e1, e2, en, eo]; exact h⟩
    obtain ⟨v, hv, hvlo, hvhi, hr⟩ := step
    obtain ⟨σ, h1, h2, h4⟩ := ih (fun y hy => hl y (List.mem_cons_of_mem _ hy)) (upd ρ x v) (by
      intro y hy
      unfold upd
      split
      · rename_i h; rw [h]; exact hvlo
      · exact hlo y (List.mem_cons_of_mem _ hy)) (by
      intro y hy
      unfold upd
      split
      · rename_i h; rw [h]; exact hvhi
      · exact hhi y (List.mem_cons_of_mem _ hy))
    refine ⟨σ, ?_, ?_, atMost_trans hr h4⟩
    · intro y hy
      by_cases hyl : y ∈ l
      · exact h1 y hyl
      · rcases List.mem_cons.1 hy with rfl | hy
        · rw [h2 y hyl, upd, if_pos rfl]; exact hv
        · exact absurd hy hyl
    · intro y hy
      rw [List.mem_cons, not_or] at hy
      rw [h2 y hy.2, upd, if_neg hy.1]

theorem binding_foldl_put (l : List Str) (f : Str → Nat) (s : SimpleScope) (x : Str) :
    binding (l.foldl (fun s x => Scope.putVar s x (.scalar (f x))) s) x = if x ∈ l then some (.scalar (f x)) else binding s x := by
  induction l generalizing s with
  | nil => simp
  | cons y l ih =>
    rw [List.foldl_cons, ih, binding_putVar]
    by_cases h : x ∈ l
    · simp [h]
    · by_cases hxy : x = y
      · simp [hxy]
      · simp [h, hxy]

theorem sorted_foldl_put (l : List Str) (f : Str → Nat) (s : SimpleScope) (h : BMap.Sorted s) :
    BMap.Sorted (l.foldl (fun s x => Scope.putVar s x (.scalar (f x))) s) := by
  induction l generalizing s with
  | nil => exact h
  | cons y l ih => exact ih _ (BMap.sorted_insert h)

/-- All components, as a list. -/
def components (d : Dimension) (old new : Option SimpleExtrinsic) : List Str :=
  freesOf idOrder (old.map (dropStorage d)) (new.map (dropStorage d)) (baseScope d)

theorem mem_components {d : Dimension} {old new : Option SimpleExtrinsic} {x : Str} : x ∈ components d old new ↔ Component old new x := by
  unfold components
  rw [mem_freesOf, freeIn_base]

/-- A corner for each choice of instances. -/
theorem corner_of {d : Dimension} {m : CompareMethod} {old new : Option SimpleExtrinsic} {σ : Str → Nat}
    (h : ∀ x, Component old new x → IsLow m old new x (σ x) ∨ IsHigh m old new x (σ x)) :
    ∃ s, Corner d m old new s ∧ (∀ x, Component old new x → binding s x = some (.scalar (σ x))) := by
  refine ⟨(components d old new).foldl (fun s x => Scope.putVar s x (.scalar (σ x))) (baseScope d), ?_, ?_⟩
  · refine ⟨sorted_foldl_put _ _ _ (sorted_baseScope d), ?_, ?_, ?_, ?_⟩
    · rw [binding_foldl_put, if_neg (fun h => (mem_components.1 h).2.1 rfl), binding_baseScope, if_neg read_ne_write, if_pos rfl]
    · rw [binding_foldl_put, if_neg (fun h => (mem_components.1 h).2.2 rfl), binding_baseScope, if_pos rfl]
    · intro x hx
      exact ⟨σ x, by rw [binding_foldl_put, if_pos (mem_components.2 hx)], h x hx⟩
    · intro x u hu
      rw [binding_foldl_put] at hu
      split at hu
      · rename_i h; exact .inr (.inr (mem_components.1 h))
      · rw [binding_baseScope] at hu
        split at hu
        · rename_i e; exact .inr (.inl e)
        · split at hu
          · rename_i e; exact .inl e
          · cases hu
  · intro x hx
    rw [binding_foldl_put, if_pos (mem_components.2 hx)]

theorem denote_congr {ρ σ : Str → Nat} {t : SimpleTerm} (h : ∀ x, Occurs x t → ρ x = σ x) : denote ρ t = denote σ t :=
  Nat.le_antisymm (C07_monotone ρ σ t fun x hx => (h x hx).le) (C07_monotone σ ρ t fun x hx => (h x hx).ge)

/-! ### Ranks -/

theorem rnd_1000 : rnd 1000 = fin 1000 := by
  have := rnd_nat_small (n := 1000) (by norm_num)
  exact_mod_cast this

theorem truncQ_mono {a b : ℚ} (h : a ≤ b) : truncQ a ≤ truncQ b := by
  unfold truncQ
  split
  · rename_i ha
    rw [if_pos (le_trans ha h)]
    exact Int.floor_le_floor h
  · rename_i ha
    split
    · rename_i hb
      have h1 : 0 ≤ ⌊b⌋ := Int.floor_nonneg.2 hb
      have h2 : 0 ≤ ⌊-a⌋ := Int.floor_nonneg.2 (by linarith)
      omega
    · have : ⌊-b⌋ ≤ ⌊-a⌋ := Int.floor_le_floor (by linarith)
      omega

/-- The rank of a moderate percentage. -/
theorem rank_fin {p : ℚ} (h : |p| ≤ 2 ^ 100) : rank (fin p) = truncQ (rndQ (p * 1000)) := by
  have hb : |p * 1000| ≤ 2 ^ 110 := by
    rw [abs_mul]
    have : |(1000 : ℚ)| = 1000 := by norm_num
    rw [this]
    calc |p| * 1000 ≤ 2 ^ 100 * 1000 := mul_le_mul_of_nonneg_right h (by norm_num)
      _ ≤ 2 ^ 110 := by norm_num
  have hr : |rndQ (p * 1000)| ≤ 2 ^ 110 := by
    rw [abs_le] at hb ⊢
    constructor
    · have := rndQ_le_pow (q := -(p * 1000)) (k := 110) (by linarith)
      rw [rndQ_neg] at this
      linarith
    · exact rndQ_le_pow hb.2
  unfold rank
  rw [rnd_1000]
  show toI128 (rnd (p * 1000)) = _
  rw [rnd_fin' hb (by norm_num)]
  show max i128Min (min i128Max (truncQ (rndQ (p * 1000)))) = _
  rw [abs_le] at hr
  have h1 : truncQ (rndQ (p * 1000)) ≤ 2 ^ 110 := by
    have := truncQ_mono hr.2
    have e : truncQ ((2 : ℚ) ^ 110) = 2 ^ 110 := by decide +kernel
    rw [e] at this
    exact this
  have h2 : -2 ^ 110 ≤ truncQ (rndQ (p * 1000)) := by
    have := truncQ_mono hr.1
    have e : truncQ (-(2 : ℚ) ^ 110) = -2 ^ 110 := by decide +kernel
    rw [e] at this
    exact this
  have e1 : i128Min = -2 ^ 127 := rfl
  have e2 : i128Max = 2 ^ 127 - 1 := rfl
  rw [e1, e2]
  omega

theorem pq_bounds {old new : ℕ} (ho : 0 < old) (hn' : new < 2 ^ 53) : -100 ≤ pq old new ∧ pq old new ≤ 2 ^ 60 := by
  have h1 := one_le_rndQ ho
  have h2 := rndQ_nat_nonneg new
  have h3 : rndQ (new : ℚ) ≤ 2 ^ 53 := rndQ_le_pow (by exact_mod_cast le_of_lt hn')
  have r0 : 0 ≤ rndQ (new : ℚ) / rndQ (old : ℚ) := div_nonneg h2 (by linarith)
  have r1 : rndQ (new : ℚ) / rndQ (old : ℚ) ≤ 2 ^ 53 := by
    rw [div_le_iff₀ (by linarith)]
    nlinarith
  have q0 := rndQ_nonneg r0
  have q1 := rndQ_le_pow r1
  have p0 : 0 ≤ rndQ (100 * rndQ (rndQ (new : ℚ) / rndQ (old : ℚ))) := rndQ_nonneg (by linarith)
  have p1 : rndQ (100 * rndQ (rndQ (new : ℚ) / rndQ (old : ℚ))) ≤ 2 ^ 60 := rndQ_le_pow (by norm_num at q1 ⊢; linarith)
  constructor
  · have : rndQ (-100) = -100 := by rw [rndQ_neg, rndQ_100]
    rw [← this]
    exact rndQ_mono (by linarith)
  · exact rndQ_le_pow (by linarith)

theorem pq_abs {old new : ℕ} (ho : 0 < old) (hn' : new < 2 ^ 53) : |pq old new| ≤ 2 ^ 100 := by
  obtain ⟨h1, h2⟩ := pq_bounds ho hn'
  rw [abs_le]
  norm_num at h2 ⊢
  constructor <;> linarith

theorem rank_mono {p q : ℚ} (hp : |p| ≤ 2 ^ 100) (hq : |q| ≤ 2 ^ 100) (h : p ≤ q) : rank (fin p) ≤ rank (fin q) := by
  rw [rank_fin hp, rank_fin hq]
  exact truncQ_mono (rndQ_mono (by linarith))

theorem occurs_of_sub {x : Str} {s t : SimpleTerm} (hs : Sub s t) (hx : Occurs x s) : Occurs x t := by
  induction hs with
  | refl => exact hx
  | addL _ ih => exact .addL ih
  | addR _ ih => exact .addR ih
  | mulL _ ih => exact .mulL ih
  | mulR _ ih => exact .mulR ih

theorem fits_mono {ρ σ : Str → Nat} {t : SimpleTerm} (h : ∀ x, Occurs x t → ρ x ≤ σ x) (hf : Fits σ t) : Fits ρ t :=
  fun s hs => Nat.lt_of_le_of_lt (C07_monotone ρ σ s fun x hx => h x (occurs_of_sub hs hx)) (hf s hs)

namespace Spec

/-- `lo` and `hi` are the ends of the box of parameter values: the annotated (or assumed) minimum and maximum of every component, and the
cost of a storage access. -/
structure Box (d : Dimension) (old new : SimpleExtrinsic) (lo hi : Str → Nat) : Prop where
  min : ∀ x, Component (some old) (some new) x → MinInst (some old) (some new) x (lo x)
  max : ∀ x, Component (some old) (some new) x → MaxInst (some old) (some new) x (hi x)
  costLo : Costs d lo
  costHi : Costs d hi

/-- `ρ` assigns to every component a value within its range. -/
def InBox (d : Dimension) (old new : SimpleExtrinsic) (lo hi ρ : Str → Nat) : Prop :=
  Costs d ρ ∧ ∀ x, Component (some old) (some new) x → lo x ≤ ρ x ∧ ρ x ≤ hi x

/-- The equation is moderate on the box: its value at the upper end is computed without overflow and below 2^53. -/
def Moderate (hi : Str → Nat) (t : SimpleTerm) : Prop := Fits hi t ∧ denote hi t < 2 ^ 53

end Spec

/-- A variable of an equation is a component or a storage access. -/
theorem component_or {old new e : SimpleExtrinsic} (he : e = old ∨ e = new) {x : Str} (hx : Occurs x e.term) :
    Component (some old) (some new) x ∨ x = str% "READ" ∨ x = str% "WRITE" := by
  by_cases h1 : x = str% "READ"
  · exact .inr (.inl h1)
  · by_cases h2 : x = str% "WRITE"
    · exact .inr (.inr h2)
    · refine .inl ⟨⟨e, ?_, hx⟩, h1, h2⟩
      rcases he with rfl | rfl
      · exact .inl rfl
      · exact .inr rfl

/-- Some evaluated corner has at least the change of any point of the box. -/
theorem box_corner {m : CompareMethod} (hm : m = .guessWorst ∨ m = .exactWorst) {d : Dimension} {old new : SimpleExtrinsic}
    (ha : MultiAffine old.term) (hb : MultiAffine new.term) {lo hi : Str → Nat} (hbox : Box d old new lo hi)
    {ρ : Str → Nat} (hρ : InBox d old new lo hi ρ) :
    ∃ s σ, Corner d m (some old) (some new) s ∧ InBox d old new lo hi σ ∧ Assigns s σ old.term ∧ Assigns s σ new.term ∧
      AtMost (denote ρ old.term) (denote ρ new.term) (denote σ old.term) (denote σ new.term) := by
  obtain ⟨hc, hr⟩ := hρ
  obtain ⟨σ, h1, h2, h4⟩ := ratio_corner ha hb (lo := lo) (hi := hi)
    (components d (some old) (some new)) (fun x hx => (mem_components.1 hx).2) ρ
    (fun x hx => (hr x (mem_components.1 hx)).1) (fun x hx => (hr x (mem_components.1 hx)).2)
  have hends : ∀ x, Component (some old) (some new) x → σ x = lo x ∨ σ x = hi x := by
    intro x hx
    exact h1 x (mem_components.2 hx)
  have hcost : Costs d σ := by
    constructor
    · rw [h2 _ (fun h => (mem_components.1 h).2.1 rfl), hc.1]
    · rw [h2 _ (fun h => (mem_components.1 h).2.2 rfl), hc.2]
  obtain ⟨s, hs, hsb⟩ := corner_of (d := d) (m := m) (old := some old) (new := some new) (σ := σ) (by
    intro x hx
    rcases hends x hx with h | h
    · left; rw [h]
      rcases hm with rfl | rfl <;> exact hbox.min x hx
    · right; rw [h]
      rcases hm with rfl | rfl <;> exact hbox.max x hx)
  have hass : ∀ e : SimpleExtrinsic, e = old ∨ e = new → Assigns s σ e.term := by
    intro e he x hx
    rcases component_or he hx with h | h | h
    · exact ⟨_, hsb x h, .inl rfl⟩
    · subst h; exact ⟨_, hs.2.1, .inl (by rw [hcost.1])⟩
    · subst h; exact ⟨_, hs.2.2.1, .inl (by rw [hcost.2])⟩
  refine ⟨s, σ, hs, ⟨hcost, fun x hx => ?_⟩, hass _ (.inl rfl), hass _ (.inr rfl), h4⟩
  have hlh : lo x ≤ hi x := Nat.le_trans (hr x hx).1 (hr x hx).2
  rcases hends x hx with h | h <;> rw [h]
  · exact ⟨Nat.le_refl _, hlh⟩
  · exact ⟨hlh, Nat.le_refl _⟩

theorem inBox_le {d : Dimension} {old new e : SimpleExtrinsic} (he : e = old ∨ e = new) {lo hi ρ : Str → Nat}
    (hbox : Box d old new lo hi) (hρ : InBox d old new lo hi ρ) (x : Str) (hx : Occurs x e.term) : lo x ≤ ρ x ∧ ρ x ≤ hi x := by
  rcases component_or he hx with h | h | h
  · exact hρ.2 x h
  · subst h; rw [hbox.costLo.1, hbox.costHi.1, hρ.1.1]; exact ⟨Nat.le_refl _, Nat.le_refl _⟩
  · subst h; rw [hbox.costLo.2, hbox.costHi.2, hρ.1.2]; exact ⟨Nat.le_refl _, Nat.le_refl _⟩

/-- The common core: a corner with at least the change of `ρ`, whose percentage has at most the reported rank, and the shape of the
reported percentage. -/
theorem worst_core (b : Build) (ho : HashOrder) {old new : SimpleExtrinsic} {params : CompareParams}
    (hm : params.method = .guessWorst ∨ params.method = .exactWorst)
    {r : TermChange} (h : compareExtrinsics b ho (some old) (some new) params = .ok r)
    (ha : MultiAffine old.term) (hb : MultiAffine new.term) {lo hi : Str → Nat} (hbox : Box params.unit old new lo hi)
    (mo : Moderate hi old.term) (mn : Moderate hi new.term) {ρ : Str → Nat} (hρ : InBox params.unit old new lo hi ρ) :
    ∃ o n o' n' : Nat, denote lo old.term ≤ o ∧ o < 2 ^ 53 ∧ n < 2 ^ 53 ∧ denote lo old.term ≤ o' ∧ o' < 2 ^ 53 ∧ n' < 2 ^ 53 ∧
      AtMost (denote ρ old.term) (denote ρ new.term) o n ∧ rank (percent o n) ≤ rank r.percent ∧ r.percent = percent o' n' := by
  have val : ∀ {e : SimpleExtrinsic} {σ : Str → Nat} {s : SimpleScope}, (e = old ∨ e = new) → Moderate hi e.term →
      InBox params.unit old new lo hi σ → Assigns s σ e.term →
      eval b e.term s = .ok (denote σ e.term) ∧ denote σ e.term < 2 ^ 53 := by
    intro e σ s he hmod hσ has
    have hle := fun x hx => (inBox_le he hbox hσ x hx).2
    exact ⟨C01_eval_exact b s σ e.term has (fits_mono hle hmod.1), Nat.lt_of_le_of_lt (C07_monotone _ _ _ hle) hmod.2⟩
  have pos : ∀ {σ : Str → Nat}, InBox params.unit old new lo hi σ → denote lo old.term ≤ denote σ old.term := fun hσ =>
    C07_monotone _ _ _ fun x hx => (inBox_le (.inl rfl) hbox hσ x hx).1
  obtain ⟨s, σ, hs, hσ, as1, as2, hratio⟩ := box_corner hm ha hb hbox hρ
  obtain ⟨r', ⟨_, ⟨v1, e1, f1⟩, ⟨v2, e2, f2⟩, hp⟩, hmax⟩ := C25_maximal b ho old new params r h s hs
  obtain ⟨g1, l1⟩ := val (.inl rfl) mo hσ as1
  obtain ⟨g2, l2⟩ := val (.inr rfl) mn hσ as2
  rw [f1] at g1; injection g1 with g1
  rw [f2] at g2; injection g2 with g2
  obtain ⟨hc, ⟨_, ⟨w1, e1', f1'⟩, ⟨w2, e2', f2'⟩, hp'⟩, _⟩ := C25_reported_is_corner b ho _ _ params r h
  -- the reported corner is in the box as well
  have hlh : ∀ x, Component (some old) (some new) x → lo x ≤ hi x := fun x hx => Nat.le_trans (hρ.2 x hx).1 (hρ.2 x hx).2
  have hin : InBox params.unit old new lo hi (assignment r.scope) := by
    obtain ⟨_, hr, hw, hcomp, _⟩ := hc
    refine ⟨⟨by rw [assignment, hr], by rw [assignment, hw]⟩, fun x hx => ?_⟩
    obtain ⟨n, hn, hn'⟩ := hcomp x hx
    rw [assignment, hn]
    rcases hn' with hn' | hn'
    · have : n = lo x := minInst_unique (by rcases hm with e | e <;> rw [e] at hn' <;> exact hn') (hbox.min x hx)
      rw [this]; exact ⟨Nat.le_refl _, hlh x hx⟩
    · have : n = hi x := maxInst_unique (by rcases hm with e | e <;> rw [e] at hn' <;> exact hn') (hbox.max x hx)
      rw [this]; exact ⟨hlh x hx, Nat.le_refl _⟩
  obtain ⟨g1', l1'⟩ := val (.inl rfl) mo hin (corner_assigns hc (.inl rfl))
  obtain ⟨g2', l2'⟩ := val (.inr rfl) mn hin (corner_assigns hc (.inr rfl))
  rw [f1'] at g1'; injection g1' with g1'
  rw [f2'] at g2'; injection g2' with g2'
  refine ⟨_, _, _, _, pos hσ, l1, l2, pos hin, l1', l2', hratio, ?_, ?_⟩
  · rw [e1, e2, Option.getD_some, Option.getD_some, g1, g2] at hp
    rw [← hp]
    rcases hmax with h | h
    · exact h.le
    · exact h.1.le
  · rw [hp', e1', e2', Option.getD_some, Option.getD_some, g1', g2']

theorem percent_zero_rank {n : Nat} (h0 : 0 < n) (h : n < 2 ^ 128) : rank (percent 0 n) = i128Max := by
  rw [C18_from_zero n h0 h]
  unfold rank
  rw [rnd_1000]
  have : F64.mul pinf (fin 1000) = pinf := by
    show infSign 1000 = pinf
    unfold infSign
    rw [if_pos (by norm_num)]
  rw [this]
  rfl

theorem rank_le_max (p : F64) : rank p ≤ i128Max := by
  unfold rank
  cases F64.mul p (rnd 1000) with
  | nan => decide
  | ninf => decide
  | pinf => exact Int.le_refl _
  | fin q =>
    show max i128Min (min i128Max (truncQ q)) ≤ i128Max
    have : i128Min ≤ i128Max := by decide
    omega

theorem rank_atMost {o n o' n' : Nat} (h : AtMost o n o' n') (p1 : o < 2 ^ 53) (p2 : n < 2 ^ 53) (q1 : o' < 2 ^ 53) (q2 : n' < 2 ^ 53) :
    rank (percent o n) ≤ rank (percent o' n') := by
  rcases h with ⟨p0, q0, h⟩ | ⟨rfl, h⟩ | ⟨rfl, rfl, rfl⟩
  · rw [percent_eq p0 (by omega) (by omega), percent_eq q0 (by omega) (by omega)]
    exact rank_mono (pq_abs p0 p2) (pq_abs q0 q2) (pq_mono_ratio p0 q0 p1 p2 q1 q2 h)
  · rw [percent_zero_rank h (by omega)]
    exact rank_le_max _
  · rcases Nat.eq_zero_or_pos n' with rfl | hn
    · exact Int.le_refl _
    · rw [percent_zero_rank hn (by omega)]
      exact rank_le_max _

/-- C24: for equations that are affine in every component the worst-case methods report the worst case: no choice of parameters within their
ranges has a change of higher rank than the reported one.  (A new weight where the old one is zero counts as an infinite increase; no
weight on both sides, i.e. NaN, as no change.) -/
theorem C24_worst_case (b : Build) (ho : HashOrder) (old new : SimpleExtrinsic) (params : CompareParams)
    (hm : params.method = .guessWorst ∨ params.method = .exactWorst)
    (r : TermChange) (h : compareExtrinsics b ho (some old) (some new) params = .ok r)
    (ha : MultiAffine old.term) (hb : MultiAffine new.term) (lo hi : Str → Nat) (hbox : Box params.unit old new lo hi)
    (mo : Moderate hi old.term) (mn : Moderate hi new.term) (ρ : Str → Nat) (hρ : InBox params.unit old new lo hi ρ) :
    rank (percent (denote ρ old.term) (denote ρ new.term)) ≤ rank r.percent := by
  obtain ⟨o, n, _, _, _, ho1, hn1, _, _, _, hr, hk, _⟩ := worst_core b ho hm h ha hb hbox mo mn hρ
  have p1 : denote ρ old.term < 2 ^ 53 := Nat.lt_of_le_of_lt (C07_monotone _ _ _ fun x hx => (inBox_le (.inl rfl) hbox hρ x hx).2) mo.2
  have p2 : denote ρ new.term < 2 ^ 53 := Nat.lt_of_le_of_lt (C07_monotone _ _ _ fun x hx => (inBox_le (.inr rfl) hbox hρ x hx).2) mn.2
  exact _root_.le_trans (rank_atMost hr p1 p2 ho1 hn1) hk

theorem truncQ_le_imp {x y : ℚ} (h : truncQ x ≤ truncQ y) : x ≤ y + 2 := by
  unfold truncQ at h
  have fx := Int.floor_le x
  have fx' := Int.lt_floor_add_one x
  have fy := Int.floor_le y
  have fnx := Int.floor_le (-x)
  have fnx' := Int.lt_floor_add_one (-x)
  have fny := Int.floor_le (-y)
  have fny' := Int.lt_floor_add_one (-y)
  have h : ((if 0 ≤ x then ⌊x⌋ else -⌊-x⌋ : ℤ) : ℚ) ≤ ((if 0 ≤ y then ⌊y⌋ else -⌊-y⌋ : ℤ) : ℚ) := by exact_mod_cast h
  split at h <;> split at h <;> push_cast at h <;> linarith

/-- C24, in numbers: the exact relative change at any point of the box exceeds the reported percentage by at most 0.002 percentage points
and a relative rounding error of `2^-49`. -/
theorem C24_worst_case_numeric (b : Build) (ho : HashOrder) (old new : SimpleExtrinsic) (params : CompareParams)
    (hm : params.method = .guessWorst ∨ params.method = .exactWorst)
    (r : TermChange) (h : compareExtrinsics b ho (some old) (some new) params = .ok r)
    (ha : MultiAffine old.term) (hb : MultiAffine new.term) (lo hi : Str → Nat) (hbox : Box params.unit old new lo hi)
    (hpos : 0 < denote lo old.term) (mo : Moderate hi old.term) (mn : Moderate hi new.term)
    (ρ : Str → Nat) (hρ : InBox params.unit old new lo hi ρ) :
    ∃ p : ℚ, r.percent = fin p ∧
      (1 - 1 / 2 ^ 49) * (100 * (denote ρ new.term : ℚ) / denote ρ old.term) - 100 ≤ p + 1 / 500 + 1 / 2 ^ 42 := by
  obtain ⟨o, n, o', n', ho0, ho1, hn1, ho0', ho1', hn1', hr, hk, he⟩ := worst_core b ho hm h ha hb hbox mo mn hρ
  have p0 : 0 < denote ρ old.term :=
    Nat.lt_of_lt_of_le hpos (C07_monotone _ _ _ fun x hx => (inBox_le (.inl rfl) hbox hρ x hx).1)
  replace ho0 : 0 < o := Nat.lt_of_lt_of_le hpos ho0
  replace ho0' : 0 < o' := Nat.lt_of_lt_of_le hpos ho0'
  replace hr : denote ρ new.term * o ≤ n * denote ρ old.term := by
    rcases hr with h | h | h
    · exact h.2.2
    · omega
    · omega
  rw [percent_eq ho0' (by omega) (by omega)] at he
  refine ⟨_, he, ?_⟩
  obtain ⟨q, hq, hacc⟩ := C19_accurate o n ho0 (by omega) (by omega)
  rw [percent_eq ho0 (by omega) (by omega)] at hq hk
  injection hq with hq
  rw [he, rank_fin (pq_abs ho0 hn1), rank_fin (pq_abs ho0' hn1')] at hk
  rw [← hq] at hacc
  obtain ⟨b1, b2⟩ := pq_bounds ho0' hn1'
  obtain ⟨c1, c2⟩ := pq_bounds ho0 hn1
  generalize pq o n = x at *
  generalize pq o' n' = y at *
  have ht := truncQ_le_imp hk
  have hx := abs_le.1 (abs_rndQ_sub_le' (x * 1000))
  have hy := abs_le.1 (abs_rndQ_sub_le' (y * 1000))
  have htiny : (2 : ℚ) ^ (-1075 : ℤ) ≤ 1 / 2 ^ 60 := by
    rw [zpow_neg, ← one_div]
    apply one_div_le_one_div_of_le (by norm_num)
    exact_mod_cast pow_le_pow_right₀ (by norm_num : (1 : ℚ) ≤ 2) (by norm_num : 60 ≤ 1075)
  generalize (2 : ℚ) ^ (-1075 : ℤ) = tiny at *
  have hR : 100 * (denote ρ new.term : ℚ) / denote ρ old.term ≤ 100 * (n : ℚ) / o := by
    rw [div_le_div_iff₀ (by exact_mod_cast p0) (by exact_mod_cast ho0)]
    have : (denote ρ new.term : ℚ) * o ≤ n * denote ρ old.term := by exact_mod_cast hr
    linarith
  have hN0 : 0 ≤ 100 * (n : ℚ) / o := by positivity
  have hNle := abs_le.1 hacc
  generalize 100 * (n : ℚ) / o = N at *
  generalize 100 * (denote ρ new.term : ℚ) / denote ρ old.term = R at *
  rcases _root_.le_or_gt x y with hxy | hxy
  · norm_num at *
    linarith
  · have ax : |x * 1000| ≤ 1000 * (x + 200) := by
      rw [abs_le]; constructor <;> linarith
    have ay : |y * 1000| ≤ 1000 * (x + 200) := by
      rw [abs_le]; constructor <;> linarith
    generalize |x * 1000| = ax' at *
    generalize |y * 1000| = ay' at *
    norm_num at *
    linarith

/-- Every factor is positive, so every sub-equation is at most the whole. -/
def allPos (ρ : Str → Nat) : SimpleTerm → Bool
  | .value n => 0 < n
  | .scalar n => 0 < n
  | .var x => 0 < ρ x
  | .add l r => allPos ρ l && allPos ρ r
  | .mul l r => allPos ρ l && allPos ρ r

theorem denote_pos {ρ : Str → Nat} {t : SimpleTerm} (h : allPos ρ t = true) : 0 < denote ρ t := by
  induction t with
  | value n => simpa [allPos, denote] using h
  | scalar n => simpa [allPos, denote] using h
  | var x => simpa [allPos, denote] using h
  | add l r hl hr => rw [allPos, Bool.and_eq_true] at h; have := hl h.1; rw [denote]; omega
  | mul l r hl hr => rw [allPos, Bool.and_eq_true] at h; rw [denote]; exact Nat.mul_pos (hl h.1) (hr h.2)

theorem sub_le_of_pos {ρ : Str → Nat} {s t : SimpleTerm} (hs : Sub s t) (h : allPos ρ t = true) : denote ρ s ≤ denote ρ t := by
  induction hs with
  | refl => exact Nat.le_refl _
  | addL _ ih => rw [allPos, Bool.and_eq_true] at h; have := ih h.1; rw [denote]; omega
  | addR _ ih => rw [allPos, Bool.and_eq_true] at h; have := ih h.2; rw [denote]; omega
  | mulL _ ih => rw [allPos, Bool.and_eq_true] at h; rw [denote]; exact Nat.le_trans (ih h.1) (Nat.le_mul_of_pos_right _ (denote_pos h.2))
  | mulR _ ih => rw [allPos, Bool.and_eq_true] at h; rw [denote]; exact Nat.le_trans (ih h.2) (Nat.le_mul_of_pos_left _ (denote_pos h.1))

/-- `1000 + n + 7 * READ`. -/
def exOld : SimpleExtrinsic :=
  exCall (.add (.add (.value 1000) (.var (str% "n"))) (.mul (.var (str% "READ")) (.scalar 7)))

/-- `1000 + 20 * n * m + 8 * READ`. -/
def exNew : SimpleExtrinsic :=
  exCall (.add (.add (.value 1000) (.mul (.mul (.value 20) (.var (str% "n"))) (.var (str% "m")))) (.mul (.var (str% "READ")) (.scalar 8)))

/-- Assignment with the costs of storage accesses and `v` for every component. -/
def exAt (v : Nat) : Str → Nat := fun x => if x = str% "READ" then 25000000 else if x = str% "WRITE" then 100000000 else v

/-- The hypotheses of C24 hold for a bilinear pair of equations with storage accesses, at the interior point `n = m = 42`. -/
example : ∃ r, compareExtrinsics .release idOrder (some exOld) (some exNew) (exParams .guessWorst .time) = .ok r ∧
    rank (percent (denote (exAt 42) exOld.term) (denote (exAt 42) exNew.term)) ≤ rank r.percent := by
  have hok : (compareExtrinsics .release idOrder (some exOld) (some exNew) (exParams .guessWorst .time)).isOk = true := by
    decide +kernel
  cases hr : compareExtrinsics .release idOrder (some exOld) (some exNew) (exParams .guessWorst .time) with
  | ok r =>
    refine ⟨r, rfl, C24_worst_case .release idOrder exOld exNew _ (.inl rfl) r hr ?_ ?_ (exAt 0) (exAt 100) ?_ ?_ ?_ _ ?_⟩
    · refine .add (.add .value .var) (.mul .var .scalar ?_)
      intro x _ h; cases h
    · refine .add (.add .value (.mul (.mul .value .var ?_) .var ?_)) (.mul .var .scalar ?_)
      · intro x h; cases h
      · intro x h h'
        cases h' with
        | here => rcases h with _ | _ | _ | h | h <;> cases h
      · intro x _ h; cases h
    · refine ⟨?_, ?_, by constructor <;> decide, by constructor <;> decide⟩
      · rintro x ⟨_, h1, h2⟩
        refine .inl ⟨?_, by simp [exAt, h1, h2]⟩
        rintro r ⟨e, m, he | he, hm, _⟩ <;> injection he with he <;> subst he <;> cases hm
      · rintro x ⟨_, h1, h2⟩
        refine .inl ⟨?_, by simp [exAt, h1, h2]⟩
        rintro r ⟨e, m, he | he, hm, _⟩ <;> injection he with he <;> subst he <;> cases hm
    · refine ⟨?_, by decide⟩
      intro s hs
      refine Nat.lt_of_le_of_lt (sub_le_of_pos hs ?_) (by decide : denote (exAt 100) exOld.term < 2 ^ 128)
      decide
    · refine ⟨?_, by decide⟩
      intro s hs
      refine Nat.lt_of_le_of_lt (sub_le_of_pos hs ?_) (by decide : denote (exAt 100) exNew.term < 2 ^ 128)
      decide
    · refine ⟨by constructor <;> decide, ?_⟩
      rintro x ⟨_, h1, h2⟩
      simp [exAt, h1, h2]
  | err m => rw [hr] at hok; cases hok
  | panic => rw [hr] at hok; cases hok
  | diverge => rw [hr] at hok; cases hok

/-- C24 needs affine equations: `100 + n * n` against `100 + 20 * n` is reported as +0% although it is +50% at `n = 10`. -/
theorem C24_false_without_affinity :
    (compareExtrinsics .release idOrder (some (exCall (.add (.value 100) (.mul (.var (str% "n")) (.var (str% "n"))))))
      (some (exCall (.add (.value 100) (.mul (.scalar 20) (.var (str% "n")))))) (exParams .guessWorst .time)).map
        (fun r => (r.oldV, r.newV, r.percent)) = .ok (some 100, some 100, fin 0) ∧
    percent (denote (exAt 10) (.add (.value 100) (.mul (.var (str% "n")) (.var (str% "n")))))
      (denote (exAt 10) (.add (.value 100) (.mul (.scalar 20) (.var (str% "n"))))) = fin 50 := by
  constructor <;> decide +kernel

/-- C24 in numbers needs an old version that costs something: `1000 * n` against `500 * n` is reported as NaN (at `n = 0`) although it is
-50% at `n = 10`, say. -/
theorem C24_false_with_zero_old :
    (compareExtrinsics .release idOrder (some (exCall (.mul (.value 1000) (.var (str% "n")))))
      (some (exCall (.mul (.value 500) (.var (str% "n"))))) (exParams .guessWorst .time)).map
        (fun r => (r.oldV, r.newV, r.percent)) = .ok (some 0, some 0, nan) ∧
    percent (denote (exAt 10) (.mul (.value 1000) (.var (str% "n")))) (denote (exAt 10) (.mul (.value 500) (.var (str% "n")))) = fin (-50) := by
  constructor <;> decide +kernel

end Swc
