/-
Lemmas about evaluation of one-dimensional equations.
-/
import Verif.Lemmas.Sorted
import Verif.Spec.Arith

namespace Swc

open Std Spec

theorem binding_eq_get {T : Type} (m : BMap T) (x : Str) : binding m x = BMap.get m x := by
  induction m with
  | nil => rfl
  | cons p m ih =>
    obtain ⟨k, v⟩ := p
    rw [BMap.get_cons, binding, ih]

@[simp] theorem Scope.get_def {T : Type} (m : Scope T) (x : Str) : Scope.get m x = binding m x :=
  (binding_eq_get m x).symm

theorem binding_putVar {T : Type} (m : Scope T) (x y : Str) (v : T) :
    binding (Scope.putVar m x v) y = if y = x then some v else binding m y := by
  rw [binding_eq_get, binding_eq_get, Scope.putVar, BMap.get_insert]

theorem binding_mem_keys {T : Type} {m : Scope T} {x : Str} {v : T} (h : binding m x = some v) : x ∈ m.map (·.1) := by
  rw [binding_eq_get] at h
  exact BMap.get_isSome_iff.1 (by rw [h]; rfl)

theorem len_pos_of_binding {T : Type} {m : Scope T} {x : Str} {v : T} (h : binding m x = some v) :
    ∃ n, m.len = n + 1 := by
  cases m with
  | nil => simp [binding] at h
  | cons p m => exact ⟨m.length, rfl⟩

theorem occurs_add {T : Type} {x : Str} {l r : Term T} : Occurs x (.add l r) ↔ Occurs x l ∨ Occurs x r := by
  constructor
  · intro h; cases h with
    | addL h => exact .inl h
    | addR h => exact .inr h
  · rintro (h | h)
    · exact .addL h
    · exact .addR h

theorem occurs_mul {T : Type} {x : Str} {l r : Term T} : Occurs x (.mul l r) ↔ Occurs x l ∨ Occurs x r := by
  constructor
  · intro h; cases h with
    | mulL h => exact .inl h
    | mulR h => exact .inr h
  · rintro (h | h)
    · exact .mulL h
    · exact .mulR h

theorem occurs_var {T : Type} {x y : Str} : Occurs x (.var y : Term T) ↔ x = y := by
  constructor
  · intro h; cases h; rfl
  · rintro rfl; exact .here

theorem not_occurs_value {T : Type} {x : Str} {n : T} : ¬ Occurs x (.value n : Term T) := by intro h; cases h
theorem not_occurs_scalar {T : Type} {x : Str} {n : Nat} : ¬ Occurs x (.scalar n : Term T) := by intro h; cases h

/-! ### Evaluation with an abstract look-up -/

namespace Term

/-- The look-up function at a given fuel. -/
def lookF (b : Build) (ctx : SimpleScope) : Nat → Str → Res Nat
  | 0, x => match binding ctx x with
    | some _ => .diverge
    | none => .err (notFoundMsg x)
  | n + 1, x => match binding ctx x with
    | some t => evalWith b (lookF b ctx n) t
    | none => .err (notFoundMsg x)

theorem evalF_eq (b : Build) (ctx : SimpleScope) (n : Nat) (t : SimpleTerm) :
    evalF b ctx n t = evalWith b (lookF b ctx n) t := by
  induction n generalizing t with
  | zero =>
    rw [evalF]
    congr 1
    funext x
    rw [Scope.get_def, lookF]
    cases binding ctx x <;> rfl
  | succ n ih =>
    rw [evalF]
    congr 1
    funext x
    rw [Scope.get_def, lookF]
    cases binding ctx x with
    | none => rfl
    | some t => exact ih t

theorem evalWith_congr {b : Build} {g h : Str → Res Nat} {t : SimpleTerm} (H : ∀ x, Occurs x t → g x = h x) :
    evalWith b g t = evalWith b h t := by
  induction t with
  | value => rfl
  | scalar => rfl
  | var x => exact H x .here
  | add l r ihl ihr =>
    simp only [evalWith]
    rw [ihl fun x hx => H x (.addL hx), ihr fun x hx => H x (.addR hx)]
  | mul l r ihl ihr =>
    simp only [evalWith]
    rw [ihl fun x hx => H x (.mulL hx), ihr fun x hx => H x (.mulR hx)]

/-- Flat order on outcomes: `diverge` is below everything. -/
def Below (r s : Res Nat) : Prop := r = .diverge ∨ r = s

theorem addU128_ne_diverge {b : Build} {x y : Nat} : addU128 b x y ≠ .diverge := by
  unfold addU128
  split
  · simp
  · cases b <;> simp

theorem mulU128_ne_diverge {b : Build} {x y : Nat} : mulU128 b x y ≠ .diverge := by
  unfold mulU128
  split
  · simp
  · cases b <;> simp

theorem bind2_below {f : Nat → Nat → Res Nat} {r r' s s' : Res Nat} (h1 : Below r r') (h2 : Below s s') :
    Below (do let a ← r; let c ← s; f a c) (do let a ← r'; let c ← s'; f a c) := by
  rcases h1 with rfl | rfl
  · exact .inl rfl
  · cases r with
    | ok a =>
      rcases h2 with rfl | rfl
      · exact .inl rfl
      · exact .inr rfl
    | err m => exact .inr rfl
    | panic => exact .inr rfl
    | diverge => exact .inr rfl

theorem evalWith_mono {b : Build} {g h : Str → Res Nat} (H : ∀ x, Below (g x) (h x)) (t : SimpleTerm) :
    Below (evalWith b g t) (evalWith b h t) := by
  induction t with
  | value => exact .inr rfl
  | scalar => exact .inr rfl
  | var x => exact H x
  | add l r ihl ihr => exact bind2_below ihl ihr
  | mul l r ihl ihr => exact bind2_below ihl ihr

theorem lookF_mono (b : Build) (ctx : SimpleScope) (n : Nat) (x : Str) :
    Below (lookF b ctx n x) (lookF b ctx (n + 1) x) := by
  induction n generalizing x with
  | zero =>
    rw [lookF, lookF]
    cases binding ctx x with
    | none => exact .inr rfl
    | some t => exact .inl rfl
  | succ n ih =>
    rw [lookF, lookF]
    cases binding ctx x with
    | none => exact .inr rfl
    | some t => exact evalWith_mono ih t

theorem Below.trans {r s t : Res Nat} (h1 : Below r s) (h2 : Below s t) : Below r t := by
  rcases h1 with rfl | rfl
  · exact .inl rfl
  · exact h2

theorem lookF_mono_le (b : Build) (ctx : SimpleScope) {n m : Nat} (h : n ≤ m) (x : Str) :
    Below (lookF b ctx n x) (lookF b ctx m x) := by
  induction h with
  | refl => exact .inr rfl
  | step _ ih => exact ih.trans (lookF_mono b ctx _ x)

theorem evalF_mono_le (b : Build) (ctx : SimpleScope) {n m : Nat} (h : n ≤ m) (t : SimpleTerm) :
    Below (evalF b ctx n t) (evalF b ctx m t) := by
  rw [evalF_eq, evalF_eq]
  exact evalWith_mono (lookF_mono_le b ctx h) t

theorem lookF_stable_of {b : Build} {ctx : SimpleScope} {n : Nat} (h : lookF b ctx (n + 1) = lookF b ctx n) (k : Nat) :
    lookF b ctx (n + k) = lookF b ctx n := by
  induction k with
  | zero => rfl
  | succ k ih =>
    have : lookF b ctx (n + (k + 1)) = lookF b ctx (n + 1) := by
      funext x
      show lookF b ctx ((n + k) + 1) x = _
      rw [lookF, lookF, ih]
    rw [this, h]

/-- Number of bindings whose evaluation has not finished at fuel `n`. -/
def cntDiv (b : Build) (ctx : SimpleScope) (n : Nat) : Nat :=
  (ctx.map (·.1)).countP (fun x => decide (lookF b ctx n x = .diverge))

theorem lookF_unbound {b : Build} {ctx : SimpleScope} {n : Nat} {x : Str} (h : binding ctx x = none) :
    lookF b ctx n x = .err (notFoundMsg x) := by
  cases n <;> rw [lookF, h]

theorem countP_lt {α : Type} {p q : α → Bool} {l : List α} (hqp : ∀ x ∈ l, q x = true → p x = true)
    (h : ∃ x ∈ l, p x = true ∧ q x = false) : l.countP q < l.countP p := by
  induction l with
  | nil => obtain ⟨x, hx, _⟩ := h; simp at hx
  | cons y l ih =>
    have hle : l.countP q ≤ l.countP p := List.countP_mono_left fun x hx => hqp x (List.mem_cons_of_mem _ hx)
    by_cases hy : p y = true ∧ q y = false
    · rw [List.countP_cons, List.countP_cons, hy.1, hy.2]
      simp; omega
    · obtain ⟨x, hx, hpx, hqx⟩ := h
      have hxl : x ∈ l := by
        rcases List.mem_cons.1 hx with rfl | hx
        · exact absurd ⟨hpx, hqx⟩ hy
        · exact hx
      have := ih (fun x hx => hqp x (List.mem_cons_of_mem _ hx)) ⟨x, hxl, hpx, hqx⟩
      rw [List.countP_cons, List.countP_cons]
      have h2 := hqp y (by simp)
      cases hq : q y <;> cases hp : p y <;> simp_all <;> omega

theorem cntDiv_lt {b : Build} {ctx : SimpleScope} {n : Nat} (h : lookF b ctx (n + 1) ≠ lookF b ctx n) :
    cntDiv b ctx (n + 1) < cntDiv b ctx n := by
  have : ∃ x, lookF b ctx (n + 1) x ≠ lookF b ctx n x := by
    apply Classical.byContradiction
    intro hc
    apply h
    funext x
    apply Classical.byContradiction
    intro hx
    exact hc ⟨x, hx⟩
  obtain ⟨x, hx⟩ := this
  have hd : lookF b ctx n x = .diverge := by
    rcases lookF_mono b ctx n x with h' | h'
    · exact h'
    · exact absurd h'.symm hx
  have hb : ∃ t, binding ctx x = some t := by
    cases hb : binding ctx x with
    | some t => exact ⟨t, rfl⟩
    | none => rw [lookF_unbound hb] at hd; cases hd
  obtain ⟨t, ht⟩ := hb
  unfold cntDiv
  apply countP_lt
  · intro y _ hy
    have hy' : lookF b ctx (n + 1) y = .diverge := by simpa using hy
    rcases lookF_mono b ctx n y with h' | h'
    · simp [h']
    · simp [h', hy']
  · refine ⟨x, binding_mem_keys ht, by simp [hd], ?_⟩
    have : lookF b ctx (n + 1) x ≠ .diverge := by rw [← hd]; exact hx
    simp [this]

theorem lookF_stable (b : Build) (ctx : SimpleScope) : lookF b ctx (ctx.len + 1) = lookF b ctx ctx.len := by
  have key : ∀ n, (∃ m, m < n ∧ lookF b ctx (m + 1) = lookF b ctx m) ∨ cntDiv b ctx n + n ≤ ctx.len := by
    intro n
    induction n with
    | zero =>
      right
      unfold cntDiv
      refine Nat.le_trans List.countP_le_length ?_
      simp [Scope.len]
    | succ n ih =>
      rcases ih with ⟨m, hm, h⟩ | h
      · exact .inl ⟨m, by omega, h⟩
      · by_cases hs : lookF b ctx (n + 1) = lookF b ctx n
        · exact .inl ⟨n, by omega, hs⟩
        · right
          have := cntDiv_lt hs
          omega
  rcases key (ctx.len + 1) with ⟨m, hm, h⟩ | h
  · have h1 := lookF_stable_of h (ctx.len - m)
    have h2 := lookF_stable_of h (ctx.len + 1 - m)
    rw [show m + (ctx.len - m) = ctx.len by omega] at h1
    rw [show m + (ctx.len + 1 - m) = ctx.len + 1 by omega] at h2
    rw [h1, h2]
  · omega

theorem lookF_ge (b : Build) (ctx : SimpleScope) {n : Nat} (h : ctx.len ≤ n) : lookF b ctx n = lookF b ctx ctx.len := by
  have := lookF_stable_of (lookF_stable b ctx) (n - ctx.len)
  rwa [show ctx.len + (n - ctx.len) = n by omega] at this

/-- More fuel than the number of bindings never changes the outcome. -/
theorem evalF_ge (b : Build) (ctx : SimpleScope) {n : Nat} (h : ctx.len ≤ n) (t : SimpleTerm) :
    evalF b ctx n t = eval b t ctx := by
  rw [eval, evalF_eq, evalF_eq, lookF_ge b ctx h]

theorem eval_of_evalF {b : Build} {ctx : SimpleScope} {n : Nat} {t : SimpleTerm} (h : evalF b ctx n t ≠ .diverge) :
    eval b t ctx = evalF b ctx n t := by
  by_cases hn : ctx.len ≤ n
  · exact (evalF_ge b ctx hn t).symm
  · rcases evalF_mono_le b ctx (Nat.le_of_not_le hn) t with h' | h'
    · exact absurd h' h
    · exact h'.symm

/-- The look-up function of `eval`. -/
def look (b : Build) (ctx : SimpleScope) (x : Str) : Res Nat := lookF b ctx ctx.len x

theorem eval_eq (b : Build) (ctx : SimpleScope) (t : SimpleTerm) : eval b t ctx = evalWith b (look b ctx) t :=
  evalF_eq b ctx _ t

/-- The defining equation of the recursive Rust function at a variable. -/
theorem look_eq (b : Build) (ctx : SimpleScope) (x : Str) :
    look b ctx x = match binding ctx x with
      | some t => eval b t ctx
      | none => .err (notFoundMsg x) := by
  have : look b ctx x = lookF b ctx (ctx.len + 1) x := by rw [lookF_stable]; rfl
  rw [this, lookF]
  cases binding ctx x with
  | none => rfl
  | some t => exact (eval_eq b ctx t).symm

theorem look_num {b : Build} {ctx : SimpleScope} {x : Str} {u : SimpleTerm} {n : Nat} (h : binding ctx x = some u)
    (hn : IsNum u n) : look b ctx x = .ok n := by
  rw [look_eq, h]
  rcases hn with rfl | rfl
  · simp [eval_eq, evalWith]
  · simp [eval_eq, evalWith]

theorem look_unbound {b : Build} {ctx : SimpleScope} {x : Str} (h : binding ctx x = none) :
    look b ctx x = .err (notFoundMsg x) := by
  rw [look_eq, h]

/-! The five defining equations of `SimpleTerm::eval` (`core/src/term.rs:136-149`), recovered from the fuelled model. -/

theorem eval_value (b : Build) (ctx : SimpleScope) (n : Nat) : eval b (.value n) ctx = .ok n := by rw [eval_eq]; rfl
theorem eval_scalar (b : Build) (ctx : SimpleScope) (n : Nat) : eval b (.scalar n) ctx = .ok n := by rw [eval_eq]; rfl
theorem eval_add (b : Build) (ctx : SimpleScope) (l r : SimpleTerm) :
    eval b (.add l r) ctx = (do let a ← eval b l ctx; let c ← eval b r ctx; addU128 b a c) := by
  simp only [eval_eq]; rfl
theorem eval_mul (b : Build) (ctx : SimpleScope) (l r : SimpleTerm) :
    eval b (.mul l r) ctx = (do let a ← eval b l ctx; let c ← eval b r ctx; mulU128 b a c) := by
  simp only [eval_eq]; rfl
theorem eval_var (b : Build) (ctx : SimpleScope) (x : Str) :
    eval b (.var x) ctx = match binding ctx x with
      | some t => eval b t ctx
      | none => .err (notFoundMsg x) := by
  rw [← look_eq, eval_eq]; rfl

end Term
end Swc
