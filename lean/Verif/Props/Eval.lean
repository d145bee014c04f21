/-
C01–C07: evaluation of one-dimensional weight equations, free and bound variables, substitution, scopes.
-/
import Verif.Lemmas.Eval

namespace Swc

open Std Spec Term

/-! ### C01: evaluation is arithmetic -/

theorem litsFit_add {l r : SimpleTerm} (h : LitsFit (.add l r)) : LitsFit l ∧ LitsFit r :=
  ⟨fun n hn => h n (hn.imp .addL .addL), fun n hn => h n (hn.imp .addR .addR)⟩
theorem litsFit_mul {l r : SimpleTerm} (h : LitsFit (.mul l r)) : LitsFit l ∧ LitsFit r :=
  ⟨fun n hn => h n (hn.imp .mulL .mulL), fun n hn => h n (hn.imp .mulR .mulR)⟩
theorem assigns_add {ctx : SimpleScope} {ρ : Str → Nat} {l r : SimpleTerm} (h : Assigns ctx ρ (.add l r)) :
    Assigns ctx ρ l ∧ Assigns ctx ρ r := ⟨fun x hx => h x (.addL hx), fun x hx => h x (.addR hx)⟩
theorem assigns_mul {ctx : SimpleScope} {ρ : Str → Nat} {l r : SimpleTerm} (h : Assigns ctx ρ (.mul l r)) :
    Assigns ctx ρ l ∧ Assigns ctx ρ r := ⟨fun x hx => h x (.mulL hx), fun x hx => h x (.mulR hx)⟩

/-- C01 (exact): if every variable is bound to a number and no intermediate result leaves u128, `eval` returns exactly the
arithmetic value, in both build profiles. -/
theorem C01_eval_exact (b : Build) (ctx : SimpleScope) (ρ : Str → Nat) (t : SimpleTerm)
    (ha : Assigns ctx ρ t) (hf : Fits ρ t) : eval b t ctx = .ok (denote ρ t) := by
  induction t with
  | value n => exact eval_value b ctx n
  | scalar n => exact eval_scalar b ctx n
  | var x =>
    obtain ⟨u, hu, hn⟩ := ha x .here
    rw [eval_eq]
    exact look_num hu hn
  | add l r ihl ihr =>
    rw [eval_add, ihl (assigns_add ha).1 fun s hs => hf s (.addL hs), ihr (assigns_add ha).2 fun s hs => hf s (.addR hs)]
    have : denote ρ l + denote ρ r < u128Size := hf _ .refl
    simp [addU128, this, denote]
  | mul l r ihl ihr =>
    rw [eval_mul, ihl (assigns_mul ha).1 fun s hs => hf s (.mulL hs), ihr (assigns_mul ha).2 fun s hs => hf s (.mulR hs)]
    have : denote ρ l * denote ρ r < u128Size := hf _ .refl
    simp [mulU128, this, denote]

theorem addU128_release (x y : Nat) : addU128 .release x y = .ok ((x + y) % u128Size) := by
  unfold addU128
  split
  · rename_i h; rw [Nat.mod_eq_of_lt h]
  · rfl

theorem mulU128_release (x y : Nat) : mulU128 .release x y = .ok ((x * y) % u128Size) := by
  unfold mulU128
  split
  · rename_i h; rw [Nat.mod_eq_of_lt h]
  · rfl

/-- C01 (release): in an overflow-wrapping build `eval` always returns the arithmetic value modulo 2^128. -/
theorem C01_eval_release (ctx : SimpleScope) (ρ : Str → Nat) (t : SimpleTerm)
    (ha : Assigns ctx ρ t) (hl : LitsFit t) (hρ : ∀ x, Occurs x t → ρ x < 2 ^ 128) :
    eval .release t ctx = .ok (denote ρ t % 2 ^ 128) := by
  induction t with
  | value n => rw [eval_value, denote, Nat.mod_eq_of_lt (hl n (.inl .refl))]
  | scalar n => rw [eval_scalar, denote, Nat.mod_eq_of_lt (hl n (.inr .refl))]
  | var x =>
    obtain ⟨u, hu, hn⟩ := ha x .here
    rw [eval_eq, denote, Nat.mod_eq_of_lt (hρ x .here)]
    exact look_num hu hn
  | add l r ihl ihr =>
    rw [eval_add, ihl (assigns_add ha).1 (litsFit_add hl).1 fun x hx => hρ x (.addL hx),
      ihr (assigns_add ha).2 (litsFit_add hl).2 fun x hx => hρ x (.addR hx)]
    simp only [Res.bind_ok, addU128_release, denote, u128Size]
    rw [← Nat.add_mod]
  | mul l r ihl ihr =>
    rw [eval_mul, ihl (assigns_mul ha).1 (litsFit_mul hl).1 fun x hx => hρ x (.mulL hx),
      ihr (assigns_mul ha).2 (litsFit_mul hl).2 fun x hx => hρ x (.mulR hx)]
    simp only [Res.bind_ok, mulU128_release, denote, u128Size]
    rw [← Nat.mul_mod]

/-- C01 (debug): in an overflow-checking build `eval` returns exactly the arithmetic value if no intermediate result leaves u128 and
panics otherwise; it never returns a wrong number. -/
theorem C01_eval_debug (ctx : SimpleScope) (ρ : Str → Nat) (t : SimpleTerm)
    (ha : Assigns ctx ρ t) (hl : LitsFit t) (hρ : ∀ x, Occurs x t → ρ x < 2 ^ 128) :
    (Fits ρ t ∧ eval .debug t ctx = .ok (denote ρ t)) ∨ (¬ Fits ρ t ∧ eval .debug t ctx = .panic) := by
  induction t with
  | value n =>
    refine .inl ⟨?_, eval_value _ ctx n⟩
    intro s hs; cases hs; exact hl n (.inl .refl)
  | scalar n =>
    refine .inl ⟨?_, eval_scalar _ ctx n⟩
    intro s hs; cases hs; exact hl n (.inr .refl)
  | var x =>
    have hf : Fits ρ (.var x) := by intro s hs; cases hs; exact hρ x .here
    exact .inl ⟨hf, C01_eval_exact _ ctx ρ _ ha hf⟩
  | add l r ihl ihr =>
    rw [eval_add]
    rcases ihl (assigns_add ha).1 (litsFit_add hl).1 fun x hx => hρ x (.addL hx) with ⟨hfl, hel⟩ | ⟨hfl, hel⟩
    · rcases ihr (assigns_add ha).2 (litsFit_add hl).2 fun x hx => hρ x (.addR hx) with ⟨hfr, her⟩ | ⟨hfr, her⟩
      · rw [hel, her]
        by_cases h : denote ρ l + denote ρ r < u128Size
        · left
          refine ⟨?_, by simp [addU128, h, denote]⟩
          intro s hs
          cases hs with
          | refl => exact h
          | addL hs => exact hfl s hs
          | addR hs => exact hfr s hs
        · right
          exact ⟨fun hf => h (hf _ .refl), by simp [addU128, h]⟩
      · right
        exact ⟨fun hf => hfr fun s hs => hf s (.addR hs), by rw [hel, her]; rfl⟩
    · right
      exact ⟨fun hf => hfl fun s hs => hf s (.addL hs), by rw [hel]; rfl⟩
  | mul l r ihl ihr =>
    rw [eval_mul]
    rcases ihl (assigns_mul ha).1 (litsFit_mul hl).1 fun x hx => hρ x (.mulL hx) with ⟨hfl, hel⟩ | ⟨hfl, hel⟩
    · rcases ihr (assigns_mul ha).2 (litsFit_mul hl).2 fun x hx => hρ x (.mulR hx) with ⟨hfr, her⟩ | ⟨hfr, her⟩
      · rw [hel, her]
        by_cases h : denote ρ l * denote ρ r < u128Size
        · left
          refine ⟨?_, by simp [mulU128, h, denote]⟩
          intro s hs
          cases hs with
          | refl => exact h
          | mulL hs => exact hfl s hs
          | mulR hs => exact hfr s hs
        · right
          exact ⟨fun hf => h (hf _ .refl), by simp [mulU128, h]⟩
      · right
        exact ⟨fun hf => hfr fun s hs => hf s (.mulR hs), by rw [hel, her]; rfl⟩
    · right
      exact ⟨fun hf => hfl fun s hs => hf s (.mulL hs), by rw [hel]; rfl⟩

/-- Example scope: `n = 7`, `READ = 25000000`. -/
def exCtx : SimpleScope := Scope.putVar (Scope.putVar [] (str% "n") (.scalar 7)) (str% "READ") (.scalar 25000000)
/-- Example equation: `1000 * n + READ * 2`. -/
def exTerm : SimpleTerm := .add (.mul (.value 1000) (.var (str% "n"))) (.mul (.var (str% "READ")) (.scalar 2))
/-- Example assignment. -/
def exRho : Str → Nat := fun x => if x = str% "n" then 7 else 25000000

theorem exAssigns : Assigns exCtx exRho exTerm := by
  intro x hx
  simp only [exTerm, occurs_add, occurs_mul, occurs_var, not_occurs_value, not_occurs_scalar, false_or, or_false] at hx
  rcases hx with rfl | rfl
  · exact ⟨.scalar 7, by decide, .inl (by decide)⟩
  · exact ⟨.scalar 25000000, by decide, .inl (by decide)⟩

/-- The hypotheses of `C01_eval_exact` are met by `1000 * n + READ * 2` in the example scope; the value is 50007000. -/
example : Assigns exCtx exRho exTerm ∧ Fits exRho exTerm ∧ denote exRho exTerm = 50007000
    ∧ eval .release exTerm exCtx = .ok 50007000 := by
  refine ⟨exAssigns, ?_, by decide, by decide⟩
  intro s hs
  unfold exTerm at hs
  cases hs with
  | refl => decide
  | addL hs => cases hs with
    | refl => decide
    | mulL hs => cases hs; decide
    | mulR hs => cases hs; decide
  | addR hs => cases hs with
    | refl => decide
    | mulL hs => cases hs; decide
    | mulR hs => cases hs; decide

/-- Overflow: `(2^127) * 4` wraps to 0 in release and panics in debug. -/
example : eval .release (.mul (.scalar (2 ^ 127)) (.scalar 4)) [] = .ok 0
    ∧ eval .debug (.mul (.scalar (2 ^ 127)) (.scalar 4)) [] = .panic := by decide

/-! ### C02: evaluation fails exactly on unbound variables -/

theorem mem_freeVars {T : Type} (ctx : Scope (Term T)) (t : Term T) (x : Str) :
    x ∈ freeVars ctx t ↔ Occurs x t ∧ binding ctx x = none := by
  induction t with
  | value n => simp [freeVars, not_occurs_value]
  | scalar n => simp [freeVars, not_occurs_scalar]
  | var y =>
    simp only [freeVars, Scope.get_def, occurs_var]
    cases hb : binding ctx y with
    | none =>
      simp only [Option.isSome_none, Bool.false_eq_true, if_false, List.mem_singleton]
      constructor
      · rintro rfl; exact ⟨rfl, hb⟩
      · exact fun h => h.1
    | some u =>
      simp only [Option.isSome_some, if_true, List.not_mem_nil, false_iff, not_and]
      rintro rfl h; rw [h] at hb; cases hb
  | add l r ihl ihr =>
    simp only [freeVars, mem_setUnion, ihl, ihr, occurs_add]
    constructor
    · rintro (⟨h, h'⟩ | ⟨h, h'⟩)
      · exact ⟨.inl h, h'⟩
      · exact ⟨.inr h, h'⟩
    · rintro ⟨h | h, h'⟩
      · exact .inl ⟨h, h'⟩
      · exact .inr ⟨h, h'⟩
  | mul l r ihl ihr =>
    simp only [freeVars, mem_setUnion, ihl, ihr, occurs_mul]
    constructor
    · rintro (⟨h, h'⟩ | ⟨h, h'⟩)
      · exact ⟨.inl h, h'⟩
      · exact ⟨.inr h, h'⟩
    · rintro ⟨h | h, h'⟩
      · exact .inl ⟨h, h'⟩
      · exact .inr ⟨h, h'⟩

theorem mem_boundVars {T : Type} (ctx : Scope (Term T)) (t : Term T) (x : Str) :
    x ∈ boundVars ctx t ↔ Occurs x t ∧ ∃ u, binding ctx x = some u := by
  induction t with
  | value n => simp [boundVars, not_occurs_value]
  | scalar n => simp [boundVars, not_occurs_scalar]
  | var y =>
    simp only [boundVars, Scope.get_def, occurs_var]
    cases hb : binding ctx y with
    | none =>
      simp only [Option.isSome_none, Bool.false_eq_true, if_false, List.not_mem_nil, false_iff, not_and]
      rintro rfl ⟨u, h⟩; rw [h] at hb; cases hb
    | some u =>
      simp only [Option.isSome_some, if_true, List.mem_singleton]
      constructor
      · rintro rfl; exact ⟨rfl, u, hb⟩
      · exact fun h => h.1
  | add l r ihl ihr =>
    simp only [boundVars, mem_setUnion, ihl, ihr, occurs_add]
    constructor
    · rintro (⟨h, h'⟩ | ⟨h, h'⟩)
      · exact ⟨.inl h, h'⟩
      · exact ⟨.inr h, h'⟩
    · rintro ⟨h | h, h'⟩
      · exact .inl ⟨h, h'⟩
      · exact .inr ⟨h, h'⟩
  | mul l r ihl ihr =>
    simp only [boundVars, mem_setUnion, ihl, ihr, occurs_mul]
    constructor
    · rintro (⟨h, h'⟩ | ⟨h, h'⟩)
      · exact ⟨.inl h, h'⟩
      · exact ⟨.inr h, h'⟩
    · rintro ⟨h | h, h'⟩
      · exact .inl ⟨h, h'⟩
      · exact .inr ⟨h, h'⟩

theorem addU128_cases (b : Build) (x y : Nat) : (∃ n, addU128 b x y = .ok n) ∨ (b = .debug ∧ addU128 b x y = .panic) := by
  unfold addU128
  split
  · exact .inl ⟨_, rfl⟩
  · cases b
    · exact .inr ⟨rfl, rfl⟩
    · exact .inl ⟨_, rfl⟩

theorem mulU128_cases (b : Build) (x y : Nat) : (∃ n, mulU128 b x y = .ok n) ∨ (b = .debug ∧ mulU128 b x y = .panic) := by
  unfold mulU128
  split
  · exact .inl ⟨_, rfl⟩
  · cases b
    · exact .inr ⟨rfl, rfl⟩
    · exact .inl ⟨_, rfl⟩

/-- Outcomes of evaluating in a number-valued scope. -/
inductive NumOutcome (b : Build) (ctx : SimpleScope) (t : SimpleTerm) : Prop where
  | ok (n : Nat) (h : eval b t ctx = .ok n) (hb : ∀ x, Occurs x t → ∃ u, binding ctx x = some u)
  | err (x : Str) (h : eval b t ctx = .err (notFoundMsg x)) (ho : Occurs x t) (hn : binding ctx x = none)
  | panic (h : eval b t ctx = .panic) (hd : b = .debug)

theorem numOutcome_bin {b : Build} {ctx : SimpleScope} {l r t : SimpleTerm} {f : Nat → Nat → Res Nat}
    (hf : ∀ x y, (∃ n, f x y = .ok n) ∨ (b = .debug ∧ f x y = .panic))
    (he : eval b t ctx = (do let a ← eval b l ctx; let c ← eval b r ctx; f a c))
    (ho : ∀ x, Occurs x t ↔ Occurs x l ∨ Occurs x r)
    (hl : NumOutcome b ctx l) (hr : NumOutcome b ctx r) : NumOutcome b ctx t := by
  cases hl with
  | err x h o hn => exact .err x (by rw [he, h]; rfl) ((ho x).2 (.inl o)) hn
  | panic h hd => exact .panic (by rw [he, h]; rfl) hd
  | ok n h hb =>
    cases hr with
    | err x h' o hn => exact .err x (by rw [he, h, h']; rfl) ((ho x).2 (.inr o)) hn
    | panic h' hd => exact .panic (by rw [he, h, h']; rfl) hd
    | ok m h' hb' =>
      rcases hf n m with ⟨k, hk⟩ | ⟨hd, hk⟩
      · refine .ok k (by rw [he, h, h']; exact hk) ?_
        intro x hx
        rcases (ho x).1 hx with hx | hx
        · exact hb x hx
        · exact hb' x hx
      · exact .panic (by rw [he, h, h']; exact hk) hd

theorem numOutcome (b : Build) (ctx : SimpleScope) (hc : NumScope ctx) (t : SimpleTerm) : NumOutcome b ctx t := by
  induction t with
  | value n => exact .ok n (eval_value b ctx n) fun x hx => absurd hx not_occurs_value
  | scalar n => exact .ok n (eval_scalar b ctx n) fun x hx => absurd hx not_occurs_scalar
  | var x =>
    cases hb : binding ctx x with
    | none =>
      refine .err x ?_ .here hb
      rw [eval_var, hb]
    | some u =>
      obtain ⟨n, hn⟩ := hc x u hb
      refine .ok n ?_ ?_
      · rw [eval_eq]; exact look_num hb hn
      · intro y hy; cases hy; exact ⟨u, hb⟩
  | add l r ihl ihr =>
    exact numOutcome_bin (addU128_cases b) (eval_add b ctx l r) (fun x => occurs_add) ihl ihr
  | mul l r ihl ihr =>
    exact numOutcome_bin (mulU128_cases b) (eval_mul b ctx l r) (fun x => occurs_mul) ihl ihr

/-- C02: for a number-valued scope, `eval` returns an error only if the equation mentions an unbound variable, and the error names
such a variable (both build profiles). -/
theorem C02_err_names_unbound (b : Build) (ctx : SimpleScope) (hc : NumScope ctx) (t : SimpleTerm) (m : Str)
    (h : eval b t ctx = .err m) : ∃ x, Occurs x t ∧ binding ctx x = none ∧ m = str% "Variable '" ++ x ++ str% "' not found" := by
  cases numOutcome b ctx hc t with
  | ok n h' _ => rw [h'] at h; cases h
  | panic h' _ => rw [h'] at h; cases h
  | err x h' ho hn =>
    rw [h'] at h
    cases h
    exact ⟨x, ho, hn, rfl⟩

/-- C02: in a release build `eval` is an error exactly if some variable is unbound; otherwise it returns a value. -/
theorem C02_err_iff_release (ctx : SimpleScope) (hc : NumScope ctx) (t : SimpleTerm) :
    ((∃ m, eval .release t ctx = .err m) ↔ ∃ x, Occurs x t ∧ binding ctx x = none)
    ∧ ((∃ n, eval .release t ctx = .ok n) ↔ ∀ x, Occurs x t → ∃ u, binding ctx x = some u) := by
  cases numOutcome .release ctx hc t with
  | ok n h hb =>
    refine ⟨⟨?_, ?_⟩, ⟨fun _ => hb, fun _ => ⟨n, h⟩⟩⟩
    · rintro ⟨m, hm⟩; rw [h] at hm; cases hm
    · rintro ⟨x, hx, hn⟩
      obtain ⟨u, hu⟩ := hb x hx
      rw [hn] at hu; cases hu
  | panic h hd => cases hd
  | err x h ho hn =>
    refine ⟨⟨fun _ => ⟨x, ho, hn⟩, fun _ => ⟨_, h⟩⟩, ⟨?_, ?_⟩⟩
    · rintro ⟨n, hm⟩; rw [h] at hm; cases hm
    · intro hb
      obtain ⟨u, hu⟩ := hb x ho
      rw [hn] at hu; cases hu

/-- C02: in a debug build with an unbound variable the outcome is an error or an overflow panic, never a value; without one it is a
value or an overflow panic, never an error. -/
theorem C02_debug (ctx : SimpleScope) (hc : NumScope ctx) (t : SimpleTerm) :
    ((∃ x, Occurs x t ∧ binding ctx x = none) → eval .debug t ctx = .panic ∨ ∃ m, eval .debug t ctx = .err m)
    ∧ ((∀ x, Occurs x t → ∃ u, binding ctx x = some u) → eval .debug t ctx = .panic ∨ ∃ n, eval .debug t ctx = .ok n) := by
  cases numOutcome .debug ctx hc t with
  | ok n h hb =>
    refine ⟨?_, fun _ => .inr ⟨n, h⟩⟩
    rintro ⟨x, hx, hn⟩
    obtain ⟨u, hu⟩ := hb x hx
    rw [hn] at hu; cases hu
  | panic h hd => exact ⟨fun _ => .inl h, fun _ => .inl h⟩
  | err x h ho hn =>
    refine ⟨fun _ => .inr ⟨_, h⟩, ?_⟩
    intro hb
    obtain ⟨u, hu⟩ := hb x ho
    rw [hn] at hu; cases hu

/-- C02: `free_vars` is empty exactly if every variable is bound. -/
theorem C02_free_vars_empty {T : Type} (ctx : Scope (Term T)) (t : Term T) :
    freeVars ctx t = [] ↔ ∀ x, Occurs x t → ∃ u, binding ctx x = some u := by
  constructor
  · intro h x hx
    cases hb : binding ctx x with
    | some u => exact ⟨u, rfl⟩
    | none =>
      have := (mem_freeVars ctx t x).2 ⟨hx, hb⟩
      rw [h] at this; simp at this
  · intro h
    apply List.eq_nil_iff_forall_not_mem.2
    intro x hx
    obtain ⟨ho, hn⟩ := (mem_freeVars ctx t x).1 hx
    obtain ⟨u, hu⟩ := h x ho
    rw [hn] at hu; cases hu

theorem exNumScope : NumScope exCtx := by
  intro x t h
  have : (x, t) ∈ exCtx := BMap.mem_of_get (by rw [← binding_eq_get]; exact h)
  simp only [show exCtx = [(str% "READ", .scalar 25000000), (str% "n", .scalar 7)] from by decide, List.mem_cons,
    List.not_mem_nil, or_false, Prod.mk.injEq] at this
  rcases this with ⟨_, rfl⟩ | ⟨_, rfl⟩
  · exact ⟨_, .inl rfl⟩
  · exact ⟨_, .inl rfl⟩

/-- `exCtx` is number-valued, and evaluating `n + WRITE` in it is an error naming `WRITE`. -/
example : NumScope exCtx ∧ eval .release (.add (.var (str% "n")) (.var (str% "WRITE"))) exCtx
    = .err (str% "Variable 'WRITE' not found") := ⟨exNumScope, by decide⟩

/-! ### C03: free and bound variables partition the variables -/

theorem sorted_freeVars {T : Type} (ctx : Scope (Term T)) (t : Term T) : SortedBy compare (freeVars ctx t) := by
  cases t with
  | value => simp [freeVars, SortedBy]
  | scalar => simp [freeVars, SortedBy]
  | var x => unfold freeVars; split <;> simp [SortedBy]
  | add l r => exact sorted_setUnion _ _
  | mul l r => exact sorted_setUnion _ _

theorem sorted_boundVars {T : Type} (ctx : Scope (Term T)) (t : Term T) : SortedBy compare (boundVars ctx t) := by
  cases t with
  | value => simp [boundVars, SortedBy]
  | scalar => simp [boundVars, SortedBy]
  | var x => unfold boundVars; split <;> simp [SortedBy]
  | add l r => exact sorted_setUnion _ _
  | mul l r => exact sorted_setUnion _ _

/-- C03: a variable is reported by `bound_vars` iff it occurs and has a binding, by `free_vars` iff it occurs and has none; so every
occurring variable is reported by exactly one of the two, and nothing else is reported. Holds for every value type. -/
theorem C03_partition {T : Type} (ctx : Scope (Term T)) (t : Term T) (x : Str) :
    (x ∈ freeVars ctx t ↔ Occurs x t ∧ binding ctx x = none)
    ∧ (x ∈ boundVars ctx t ↔ Occurs x t ∧ ∃ u, binding ctx x = some u)
    ∧ (Occurs x t ↔ x ∈ freeVars ctx t ∨ x ∈ boundVars ctx t)
    ∧ ¬ (x ∈ freeVars ctx t ∧ x ∈ boundVars ctx t) := by
  refine ⟨mem_freeVars ctx t x, mem_boundVars ctx t x, ?_, ?_⟩
  · rw [mem_freeVars, mem_boundVars]
    constructor
    · intro h
      cases hb : binding ctx x with
      | none => exact .inl ⟨h, rfl⟩
      | some u => exact .inr ⟨h, u, rfl⟩
    · rintro (h | h) <;> exact h.1
  · rw [mem_freeVars, mem_boundVars]
    rintro ⟨⟨_, h⟩, _, u, h'⟩
    rw [h] at h'; cases h'

/-- C03: both sets list each variable once, in ascending order. -/
theorem C03_sorted {T : Type} (ctx : Scope (Term T)) (t : Term T) :
    (freeVars ctx t).Pairwise (fun a b => compare a b = .lt) ∧ (boundVars ctx t).Pairwise (fun a b => compare a b = .lt) :=
  ⟨sorted_freeVars ctx t, sorted_boundVars ctx t⟩

/-- In the example scope, `b * n + (a + n)` has the free variables `a`, `b` and the bound variable `n`. -/
example : freeVars exCtx (.add (.mul (.var (str% "b")) (.var (str% "n"))) (.add (.var (str% "a")) (.var (str% "n"))))
      = [str% "a", str% "b"]
    ∧ boundVars exCtx (.add (.mul (.var (str% "b")) (.var (str% "n"))) (.add (.var (str% "a")) (.var (str% "n"))))
      = [str% "n"] := by decide

/-! ### C04: substitution -/

theorem evalWith_substitute (b : Build) (g : Str → Res Nat) (x : Str) (u t : SimpleTerm) :
    evalWith b g (substitute x u t) = evalWith b (fun y => if y = x then evalWith b g u else g y) t := by
  induction t with
  | value => rfl
  | scalar => rfl
  | var y =>
    simp only [substitute, evalWith]
    split <;> rfl
  | add l r ihl ihr => simp only [substitute, evalWith, ihl, ihr]
  | mul l r ihl ihr => simp only [substitute, evalWith, ihl, ihr]

theorem look_numScope {b : Build} {ctx : SimpleScope} (hc : NumScope ctx) (x : Str) :
    look b ctx x = match binding ctx x with
      | some (.scalar n) => .ok n
      | some (.value n) => .ok n
      | _ => .err (notFoundMsg x) := by
  cases hb : binding ctx x with
  | none => exact look_unbound hb
  | some u =>
    obtain ⟨n, rfl | rfl⟩ := hc x u hb
    · exact look_num hb (.inl rfl)
    · exact look_num hb (.inr rfl)

theorem numScope_put {ctx : SimpleScope} (hc : NumScope ctx) (x : Str) (n : Nat) :
    NumScope (Scope.putVar ctx x (.scalar n)) := by
  intro y t h
  rw [binding_putVar] at h
  by_cases hy : y = x
  · simp only [hy, if_true, Option.some.injEq] at h
    exact ⟨n, .inl h.symm⟩
  · simp only [hy, if_false] at h
    exact hc y t h

/-- C04: evaluating after `substitute(x, u)` gives the same outcome as evaluating the original equation in the scope in which `x` is
bound to the number of `u`. -/
theorem C04_substitute_eval (b : Build) (ctx : SimpleScope) (hc : NumScope ctx) (x : Str) (u t : SimpleTerm) (n : Nat)
    (hu : eval b u ctx = .ok n) :
    eval b (substitute x u t) ctx = eval b t (Scope.putVar ctx x (.scalar n)) := by
  rw [eval_eq, evalWith_substitute, eval_eq]
  apply evalWith_congr
  intro y _
  rw [look_numScope (numScope_put hc x n), binding_putVar]
  by_cases hy : y = x
  · simp only [hy, if_true]
    rw [← eval_eq]; exact hu
  · simp only [hy, if_false]
    exact look_numScope hc y

/-- C04 at the level of arithmetic, without any scope: substitution is the update of the assignment. -/
theorem C04_substitute_value (ρ : Str → Nat) (x : Str) (u t : SimpleTerm) :
    denote ρ (substitute x u t) = denote (fun y => if y = x then denote ρ u else ρ y) t := by
  induction t with
  | value => rfl
  | scalar => rfl
  | var y =>
    simp only [substitute, denote]
    split <;> rfl
  | add l r ihl ihr => simp only [substitute, denote, ihl, ihr]
  | mul l r ihl ihr => simp only [substitute, denote, ihl, ihr]

/-- C04: the variables afterwards are those of the equation other than `x`, plus those of `u` if `x` occurred. So `x` is gone unless
`u` mentions it. -/
theorem C04_substitute_vars {T : Type} (x y : Str) (u t : Term T) :
    Occurs y (substitute x u t) ↔ (Occurs y t ∧ y ≠ x) ∨ (Occurs x t ∧ Occurs y u) := by
  induction t with
  | value => simp [substitute, not_occurs_value]
  | scalar => simp [substitute, not_occurs_scalar]
  | var v =>
    simp only [substitute]
    by_cases h : v = x
    · subst h
      simp only [if_true, occurs_var]
      constructor
      · intro h; exact .inr ⟨trivial, h⟩
      · rintro (⟨h, h'⟩ | ⟨_, h⟩)
        · exact absurd h h'
        · exact h
    · simp only [h, if_false, occurs_var]
      constructor
      · rintro rfl; exact .inl ⟨rfl, h⟩
      · rintro (⟨h', _⟩ | ⟨h', _⟩)
        · exact h'
        · exact absurd h'.symm h
  | add l r ihl ihr => simp only [substitute, occurs_add, ihl, ihr]; grind
  | mul l r ihl ihr => simp only [substitute, occurs_mul, ihl, ihr]; grind

/-- C04: substituting an absent variable changes nothing. -/
theorem C04_substitute_absent {T : Type} (x : Str) (u t : Term T) (h : ¬ Occurs x t) : substitute x u t = t := by
  induction t with
  | value => rfl
  | scalar => rfl
  | var v =>
    simp only [substitute]
    split
    · rename_i hv; subst hv; exact absurd .here h
    · rfl
  | add l r ihl ihr => rw [substitute, ihl fun h' => h (.addL h'), ihr fun h' => h (.addR h')]
  | mul l r ihl ihr => rw [substitute, ihl fun h' => h (.mulL h'), ihr fun h' => h (.mulR h')]

/-- C04: `into_substituted` is one simultaneous substitution: occurrences of the variable inside the replacement are not replaced again. -/
theorem C04_into_value (ρ : Str → Nat) (x : Str) (u t : SimpleTerm) :
    denote ρ (intoSubstituted t x u) = denote (fun y => if y = x then denote ρ u else ρ y) t := C04_substitute_value ρ x u t

/-- C04: the variables of the result of `into_substituted`. -/
theorem C04_into_vars {T : Type} (x y : Str) (u t : Term T) :
    Occurs y (intoSubstituted t x u) ↔ (Occurs y t ∧ y ≠ x) ∨ (Occurs x t ∧ Occurs y u) := C04_substitute_vars x y u t

/-- Replacing `n` by `n + 1` in `2 * n`. -/
example : intoSubstituted (.mul (.scalar 2) (.var (str% "n"))) (str% "n") (.add (.var (str% "n")) (.scalar 1))
    = (.mul (.scalar 2) (.add (.var (str% "n")) (.scalar 1)) : SimpleTerm) := by decide

/-- Names are matched exactly: substituting `n_` leaves `n` alone; substituting `n` by `3 + READ` works in the example scope. -/
example : substitute (str% "n_") (.scalar 9) exTerm = exTerm
    ∧ eval .release (.add (.scalar 3) (.var (str% "READ"))) exCtx = .ok 25000003
    ∧ eval .release (substitute (str% "n") (.add (.scalar 3) (.var (str% "READ"))) exTerm) exCtx = .ok 25050003000 := by
  decide

/-! ### C05: scopes are finite maps -/

/-- Operations on scopes, as performed by a client. -/
inductive ScopeOp (T : Type) where
  | put (name : Str) (v : T)
  | withVar (name : Str) (v : T)
  | merge (o : List (ScopeOp T))
  | extend (o : List (ScopeOp T))

mutual
/-- Run one operation on a model scope. -/
def runOp {T : Type} (s : Scope T) : ScopeOp T → Scope T
  | .put k v => Scope.putVar s k v
  | .withVar k v => Scope.withVar s k v
  | .merge o => Scope.merge s (runOps Scope.empty o)
  | .extend o => Scope.extend s (runOps Scope.empty o)
/-- Run operations in sequence. -/
def runOps {T : Type} (s : Scope T) : List (ScopeOp T) → Scope T
  | [] => s
  | o :: os => runOps (runOp s o) os
end

mutual
/-- Specification: the same operation on a mathematical partial function. -/
def specOp {T : Type} (f : Str → Option T) : ScopeOp T → Str → Option T
  | .put k v => fun x => if x = k then some v else f x
  | .withVar k v => fun x => if x = k then some v else f x
  | .merge o => fun x => (specOps (fun _ => none) o x).or (f x)
  | .extend o => fun x => (specOps (fun _ => none) o x).or (f x)
/-- Specification of a sequence of operations. -/
def specOps {T : Type} (f : Str → Option T) : List (ScopeOp T) → Str → Option T
  | [] => f
  | o :: os => specOps (specOp f o) os
end

theorem get_insertAll {T : Type} (l m : BMap T) (hl : BMap.Sorted l) (x : Str) :
    BMap.get (BMap.insertAll m l) x = (BMap.get l x).or (BMap.get m x) := by
  unfold BMap.insertAll
  induction l generalizing m with
  | nil => simp
  | cons p l ih =>
    obtain ⟨k, v⟩ := p
    have hp := List.pairwise_cons.1 hl
    rw [List.foldl_cons, ih _ hp.2, BMap.get_insert, BMap.get_cons]
    by_cases h : x = k
    · subst h
      have : BMap.get l x = none := by
        rw [BMap.get_eq_none_iff]
        intro hm
        obtain ⟨c, hc, hcx⟩ := List.mem_map.1 hm
        have := hp.1 c hc
        rw [hcx] at this
        exact not_lt_self this
      simp [this]
    · simp [h]

theorem insertAll_append {T : Type} (a b m : BMap T) :
    BMap.insertAll m (a ++ b) = BMap.insertAll (BMap.insertAll m a) b := by
  simp [BMap.insertAll, List.foldl_append]

theorem merge_eq_extend {T : Type} (s o : Scope T) (hs : BMap.Sorted s) : Scope.merge s o = Scope.extend s o := by
  unfold Scope.merge Scope.extend
  rw [insertAll_append]
  congr 1
  apply BMap.ext (BMap.sorted_insertAll (by simp [BMap.Sorted])) hs
  intro k
  rw [get_insertAll _ _ hs]
  simp

mutual
theorem runOp_spec {T : Type} (s : Scope T) (f : Str → Option T) (hs : BMap.Sorted s) (hf : ∀ x, BMap.get s x = f x) :
    (o : ScopeOp T) → BMap.Sorted (runOp s o) ∧ ∀ x, BMap.get (runOp s o) x = specOp f o x
  | .put k v => by
    refine ⟨BMap.sorted_insert hs, fun x => ?_⟩
    rw [runOp, Scope.putVar, BMap.get_insert, hf, specOp]
  | .withVar k v => by
    refine ⟨BMap.sorted_insert hs, fun x => ?_⟩
    rw [runOp, Scope.withVar, BMap.get_insert, hf, specOp]
  | .merge o => by
    have h := runOps_spec (Scope.empty : Scope T) (fun _ => none) (by simp [BMap.Sorted, Scope.empty]) (fun _ => rfl) o
    rw [runOp, merge_eq_extend _ _ hs]
    refine ⟨BMap.sorted_insertAll hs, fun x => ?_⟩
    rw [Scope.extend, get_insertAll _ _ h.1, h.2, hf, specOp]
  | .extend o => by
    have h := runOps_spec (Scope.empty : Scope T) (fun _ => none) (by simp [BMap.Sorted, Scope.empty]) (fun _ => rfl) o
    rw [runOp]
    refine ⟨BMap.sorted_insertAll hs, fun x => ?_⟩
    rw [Scope.extend, get_insertAll _ _ h.1, h.2, hf, specOp]
theorem runOps_spec {T : Type} (s : Scope T) (f : Str → Option T) (hs : BMap.Sorted s) (hf : ∀ x, BMap.get s x = f x) :
    (os : List (ScopeOp T)) → BMap.Sorted (runOps s os) ∧ ∀ x, BMap.get (runOps s os) x = specOps f os x
  | [] => ⟨hs, hf⟩
  | o :: os => by
    have h := runOp_spec s f hs hf o
    exact runOps_spec _ _ h.1 h.2 os
end

/-- C05: for every history of operations, `get` of the resulting scope is the specification partial function (last write wins, merge
and extend prefer the right operand). -/
theorem C05_scope_refines_map {T : Type} (os : List (ScopeOp T)) (x : Str) :
    Scope.get (runOps Scope.empty os) x = specOps (fun _ => none) os x :=
  (runOps_spec (Scope.empty : Scope T) (fun _ => none) (by simp [BMap.Sorted, Scope.empty]) (fun _ => rfl) os).2 x

/-- C05: `as_vec` lists exactly the bindings, sorted by name, each name once; `len` is its length and `is_empty` says that there is no
binding. -/
theorem C05_as_vec {T : Type} (os : List (ScopeOp T)) :
    let s := runOps (Scope.empty : Scope T) os
    (s.asVec.Pairwise fun a b => compare a.1 b.1 = .lt)
    ∧ (∀ k v, (k, v) ∈ s.asVec ↔ specOps (fun _ => none) os k = some v)
    ∧ s.len = s.asVec.length
    ∧ (s.isEmpty = true ↔ ∀ k, specOps (T := T) (fun _ => none) os k = none) := by
  intro s
  have h := runOps_spec (Scope.empty : Scope T) (fun _ => none) (by simp [BMap.Sorted, Scope.empty]) (fun _ => rfl) os
  refine ⟨h.1, ?_, rfl, ?_⟩
  · intro k v
    rw [← h.2]
    exact ⟨fun hm => BMap.get_of_mem h.1 hm, fun hg => BMap.mem_of_get hg⟩
  · constructor
    · intro he k
      have : s = [] := List.isEmpty_iff.1 he
      rw [← h.2]
      show BMap.get s k = none
      rw [this]; rfl
    · intro hn
      show List.isEmpty s = true
      rw [List.isEmpty_iff]
      apply List.eq_nil_iff_forall_not_mem.2
      rintro ⟨k, v⟩ hm
      have := BMap.get_of_mem h.1 hm
      rw [h.2, hn] at this
      cases this

/-- C05: two scopes with the same bindings are equal, whatever the histories that built them. -/
theorem C05_extensional {T : Type} (os os' : List (ScopeOp T))
    (h : ∀ k, specOps (T := T) (fun _ => none) os k = specOps (fun _ => none) os' k) :
    runOps (Scope.empty : Scope T) os = runOps Scope.empty os' := by
  have h1 := runOps_spec (Scope.empty : Scope T) (fun _ => none) (by simp [BMap.Sorted, Scope.empty]) (fun _ => rfl) os
  have h2 := runOps_spec (Scope.empty : Scope T) (fun _ => none) (by simp [BMap.Sorted, Scope.empty]) (fun _ => rfl) os'
  apply BMap.ext h1.1 h2.1
  intro k
  rw [h1.2, h2.2, h]

/-- The last write wins, and the right operand of `merge` wins. -/
example : Scope.get (runOps (Scope.empty : Scope Nat)
      [.put (str% "b") 1, .put (str% "a") 2, .put (str% "b") 3, .merge [.put (str% "a") 9]]) (str% "b") = some 3
    ∧ Scope.asVec (runOps (Scope.empty : Scope Nat)
      [.put (str% "b") 1, .put (str% "a") 2, .put (str% "b") 3, .merge [.put (str% "a") 9]])
      = [(str% "a", 9), (str% "b", 3)] := by decide

/-! ### C07: monotonicity -/

/-- C07: a pointwise larger assignment gives a larger value. -/
theorem C07_monotone (ρ σ : Str → Nat) (t : SimpleTerm) (h : ∀ x, Occurs x t → ρ x ≤ σ x) : denote ρ t ≤ denote σ t := by
  induction t with
  | value => exact Nat.le_refl _
  | scalar => exact Nat.le_refl _
  | var x => exact h x .here
  | add l r ihl ihr =>
    exact Nat.add_le_add (ihl fun x hx => h x (.addL hx)) (ihr fun x hx => h x (.addR hx))
  | mul l r ihl ihr =>
    exact Nat.mul_le_mul (ihl fun x hx => h x (.mulL hx)) (ihr fun x hx => h x (.mulR hx))

/-- C07 for the evaluator: as long as the larger result fits, evaluation is monotone in the bindings (both build profiles). -/
theorem C07_eval_monotone (b : Build) (ctx ctx' : SimpleScope) (ρ σ : Str → Nat) (t : SimpleTerm)
    (h : ∀ x, Occurs x t → ρ x ≤ σ x) (ha : Assigns ctx ρ t) (ha' : Assigns ctx' σ t) (hf : Fits σ t) :
    ∃ n m, eval b t ctx = .ok n ∧ eval b t ctx' = .ok m ∧ n ≤ m := by
  refine ⟨denote ρ t, denote σ t, C01_eval_exact b ctx ρ t ha ?_, C01_eval_exact b ctx' σ t ha' hf, C07_monotone ρ σ t h⟩
  intro s hs
  refine Nat.lt_of_le_of_lt (C07_monotone ρ σ s fun x hx => h x ?_) (hf s hs)
  clear ha ha' hf h
  induction hs with
  | refl => exact hx
  | addL _ ih => exact .addL ih
  | addR _ ih => exact .addR ih
  | mulL _ ih => exact .mulL ih
  | mulR _ ih => exact .mulR ih

/-- Raising `n` from 7 to 100 raises the example weight. -/
example : denote exRho exTerm ≤ denote (fun x => if x = str% "n" then 100 else 25000000) exTerm :=
  C07_monotone _ _ _ (by intro x _; unfold exRho; split <;> decide)

end Swc
