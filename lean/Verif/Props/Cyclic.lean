/-
C06: evaluation terminates exactly on the acyclic part of a scope; C01 for scopes whose bindings refer to each other.
-/
import Verif.Props.Eval

namespace Swc

open Std Spec Term

theorem evalWith_diverge {b : Build} {g : Str → Res Nat} {t : SimpleTerm} (h : evalWith b g t = .diverge) :
    ∃ x, Occurs x t ∧ g x = .diverge := by
  induction t with
  | value => cases h
  | scalar => cases h
  | var x => exact ⟨x, .here, h⟩
  | add l r ihl ihr =>
    simp only [evalWith] at h
    cases hl : evalWith b g l with
    | err m => rw [hl] at h; cases h
    | panic => rw [hl] at h; cases h
    | diverge => obtain ⟨x, hx, hg⟩ := ihl hl; exact ⟨x, .addL hx, hg⟩
    | ok a =>
      cases hr : evalWith b g r with
      | err m => rw [hl, hr] at h; cases h
      | panic => rw [hl, hr] at h; cases h
      | diverge => obtain ⟨x, hx, hg⟩ := ihr hr; exact ⟨x, .addR hx, hg⟩
      | ok c => rw [hl, hr] at h; exact absurd h addU128_ne_diverge
  | mul l r ihl ihr =>
    simp only [evalWith] at h
    cases hl : evalWith b g l with
    | err m => rw [hl] at h; cases h
    | panic => rw [hl] at h; cases h
    | diverge => obtain ⟨x, hx, hg⟩ := ihl hl; exact ⟨x, .mulL hx, hg⟩
    | ok a =>
      cases hr : evalWith b g r with
      | err m => rw [hl, hr] at h; cases h
      | panic => rw [hl, hr] at h; cases h
      | diverge => obtain ⟨x, hx, hg⟩ := ihr hr; exact ⟨x, .mulR hx, hg⟩
      | ok c => rw [hl, hr] at h; exact absurd h mulU128_ne_diverge

theorem evalWith_ok {b : Build} {g : Str → Res Nat} {t : SimpleTerm} {n : Nat} (h : evalWith b g t = .ok n) (x : Str)
    (hx : Occurs x t) : ∃ m, g x = .ok m := by
  induction t generalizing n with
  | value => cases hx
  | scalar => cases hx
  | var y => cases hx; exact ⟨n, h⟩
  | add l r ihl ihr =>
    simp only [evalWith] at h
    cases hl : evalWith b g l with
    | err m => rw [hl] at h; cases h
    | panic => rw [hl] at h; cases h
    | diverge => rw [hl] at h; cases h
    | ok a =>
      cases hr : evalWith b g r with
      | err m => rw [hl, hr] at h; cases h
      | panic => rw [hl, hr] at h; cases h
      | diverge => rw [hl, hr] at h; cases h
      | ok c =>
        rcases occurs_add.1 hx with hx | hx
        · exact ihl hl hx
        · exact ihr hr hx
  | mul l r ihl ihr =>
    simp only [evalWith] at h
    cases hl : evalWith b g l with
    | err m => rw [hl] at h; cases h
    | panic => rw [hl] at h; cases h
    | diverge => rw [hl] at h; cases h
    | ok a =>
      cases hr : evalWith b g r with
      | err m => rw [hl, hr] at h; cases h
      | panic => rw [hl, hr] at h; cases h
      | diverge => rw [hl, hr] at h; cases h
      | ok c =>
        rcases occurs_mul.1 hx with hx | hx
        · exact ihl hl hx
        · exact ihr hr hx

theorem diverge_path {b : Build} {ctx : SimpleScope} {n : Nat} {x : Str} (h : lookF b ctx n x = .diverge) :
    ∃ l : List Str, l.length = n ∧ (x :: l).Pairwise (Reach ctx) ∧ ∀ z ∈ x :: l, z ∈ ctx.map (·.1) := by
  induction n generalizing x with
  | zero =>
    refine ⟨[], rfl, by simp, ?_⟩
    intro z hz
    simp only [List.mem_singleton] at hz
    subst hz
    rw [lookF] at h
    cases hb : binding ctx z with
    | none => rw [hb] at h; cases h
    | some t => exact binding_mem_keys hb
  | succ n ih =>
    rw [lookF] at h
    cases hb : binding ctx x with
    | none => rw [hb] at h; cases h
    | some t =>
      rw [hb] at h
      obtain ⟨y, hy, hd⟩ := evalWith_diverge h
      obtain ⟨l, hl, hp, hk⟩ := ih hd
      refine ⟨y :: l, by simp [hl], ?_, ?_⟩
      · refine List.pairwise_cons.2 ⟨?_, hp⟩
        have hxy : Reach ctx x y := .step ⟨t, hb, hy⟩
        intro z hz
        rcases List.mem_cons.1 hz with rfl | hz
        · exact hxy
        · exact .trans hxy ((List.pairwise_cons.1 hp).1 z hz)
      · intro z hz
        rcases List.mem_cons.1 hz with rfl | hz
        · exact binding_mem_keys hb
        · exact hk z hz

theorem nodup_length_le {α : Type} [DecidableEq α] {l m : List α} (hn : l.Nodup) (hs : ∀ x ∈ l, x ∈ m) : l.length ≤ m.length := by
  induction l generalizing m with
  | nil => simp
  | cons a l ih =>
    have ha : a ∈ m := hs a (by simp)
    have hn' := List.nodup_cons.1 hn
    have := ih (m := m.erase a) hn'.2 (by
      intro x hx
      have hne : x ≠ a := by rintro rfl; exact hn'.1 hx
      exact (List.mem_erase_of_ne hne).2 (hs x (List.mem_cons_of_mem _ hx)))
    rw [List.length_erase_of_mem ha] at this
    have hpos : 0 < m.length := List.length_pos_of_mem ha
    simp only [List.length_cons]
    omega

/-- C06: with at least as much fuel as there are bindings, the fuel does not matter; hence `eval` of the model is the least solution
of the recursive Rust definition and `diverge` means that the Rust function does not return. -/
theorem C06_fuel_irrelevant (b : Build) (ctx : SimpleScope) (t : SimpleTerm) :
    (∀ n, ctx.len ≤ n → evalF b ctx n t = eval b t ctx)
    ∧ (∀ n, evalF b ctx n t ≠ .diverge → evalF b ctx n t = eval b t ctx)
    ∧ (eval b t ctx = .diverge ↔ ∀ n, evalF b ctx n t = .diverge) := by
  refine ⟨fun n hn => evalF_ge b ctx hn t, fun n hn => (eval_of_evalF hn).symm, ?_, fun h => h _⟩
  intro h n
  apply Classical.byContradiction
  intro hn
  rw [← eval_of_evalF hn] at hn
  exact hn h

/-- C06: if no cycle of bindings is reachable from the equation, `eval` returns (a value, an error or an overflow panic). -/
theorem C06_acyclic_terminates (b : Build) (ctx : SimpleScope) (t : SimpleTerm) (h : ¬ CyclicFrom ctx t) :
    eval b t ctx ≠ .diverge := by
  intro hd
  rw [eval_eq] at hd
  obtain ⟨x, hx, hg⟩ := evalWith_diverge hd
  obtain ⟨l, hl, hp, hk⟩ := diverge_path (n := ctx.len) (show lookF b ctx ctx.len x = .diverge from hg)
  have hnd : (x :: l).Nodup := by
    refine List.Pairwise.imp_of_mem ?_ hp
    intro a c ha hc hr hac
    subst hac
    apply h
    rcases List.mem_cons.1 ha with rfl | ha
    · exact ⟨a, a, hx, .inl rfl, hr⟩
    · exact ⟨x, a, hx, .inr ((List.pairwise_cons.1 hp).1 a ha), hr⟩
  have := nodup_length_le hnd hk
  simp only [List.length_cons, hl, Scope.len, List.length_map] at this
  exact Nat.not_succ_le_self _ this

theorem ok_reach {b : Build} {ctx : SimpleScope} {x y : Str} (hr : Reach ctx x y) {n v : Nat} (h : lookF b ctx n x = .ok v) :
    ∃ m w, m < n ∧ lookF b ctx m y = .ok w := by
  induction hr generalizing n v with
  | step hd =>
    obtain ⟨t, hb, ho⟩ := hd
    cases n with
    | zero => rw [lookF, hb] at h; cases h
    | succ n =>
      rw [lookF, hb] at h
      obtain ⟨w, hw⟩ := evalWith_ok h _ ho
      exact ⟨n, w, by omega, hw⟩
  | trans _ _ ih1 ih2 =>
    obtain ⟨m, w, hm, hw⟩ := ih1 h
    obtain ⟨m', w', hm', hw'⟩ := ih2 hw
    exact ⟨m', w', by omega, hw'⟩

theorem ok_not_cyclic {b : Build} {ctx : SimpleScope} {x : Str} {n v : Nat} (h : lookF b ctx n x = .ok v) : ¬ Reach ctx x x := by
  induction n using Nat.strongRecOn generalizing v with
  | _ n ih =>
    intro hr
    obtain ⟨m, w, hm, hw⟩ := ok_reach hr h
    exact ih m hm hw hr

/-- C06: an equation from which a cyclic binding is reachable never evaluates to a value; in particular a variable bound to an
equation that mentions it never does. -/
theorem C06_cyclic_no_value (b : Build) (ctx : SimpleScope) (t : SimpleTerm) (h : CyclicFrom ctx t) (n : Nat) :
    eval b t ctx ≠ .ok n := by
  intro he
  rw [eval_eq] at he
  obtain ⟨x, y, hx, hxy, hyy⟩ := h
  obtain ⟨v, hv⟩ := evalWith_ok he x hx
  rcases hxy with rfl | hxy
  · exact ok_not_cyclic (show lookF b ctx ctx.len x = .ok v from hv) hyy
  · obtain ⟨m, w, _, hw⟩ := ok_reach hxy (show lookF b ctx ctx.len x = .ok v from hv)
    exact ok_not_cyclic hw hyy

/-- Every variable reachable from `t` is bound. -/
def Closed (ctx : SimpleScope) (t : SimpleTerm) : Prop :=
  (∀ x, Occurs x t → ∃ u, binding ctx x = some u)
  ∧ ∀ x u, binding ctx x = some u → ∀ y, Occurs y u → ∃ w, binding ctx y = some w

theorem evalWith_release_ok_or_diverge {g : Str → Res Nat} {t : SimpleTerm}
    (h : ∀ x, Occurs x t → (∃ n, g x = .ok n) ∨ g x = .diverge) :
    (∃ n, evalWith .release g t = .ok n) ∨ evalWith .release g t = .diverge := by
  induction t with
  | value n => exact .inl ⟨n, rfl⟩
  | scalar n => exact .inl ⟨n, rfl⟩
  | var x => exact h x .here
  | add l r ihl ihr =>
    simp only [evalWith]
    rcases ihl fun x hx => h x (.addL hx) with ⟨a, ha⟩ | ha
    · rcases ihr fun x hx => h x (.addR hx) with ⟨c, hc⟩ | hc
      · rw [ha, hc]; exact .inl ⟨_, addU128_release a c⟩
      · rw [ha, hc]; exact .inr rfl
    · rw [ha]; exact .inr rfl
  | mul l r ihl ihr =>
    simp only [evalWith]
    rcases ihl fun x hx => h x (.mulL hx) with ⟨a, ha⟩ | ha
    · rcases ihr fun x hx => h x (.mulR hx) with ⟨c, hc⟩ | hc
      · rw [ha, hc]; exact .inl ⟨_, mulU128_release a c⟩
      · rw [ha, hc]; exact .inr rfl
    · rw [ha]; exact .inr rfl

theorem closed_release_ok_or_diverge {ctx : SimpleScope} {t : SimpleTerm} (hc : Closed ctx t) :
    (∃ n, eval .release t ctx = .ok n) ∨ eval .release t ctx = .diverge := by
  rw [eval_eq]
  apply evalWith_release_ok_or_diverge
  intro x hx
  obtain ⟨u, hu⟩ := hc.1 x hx
  show (∃ n, lookF .release ctx ctx.len x = .ok n) ∨ _ = _
  have : ∀ n x u, binding ctx x = some u → (∃ m, lookF .release ctx n x = .ok m) ∨ lookF .release ctx n x = .diverge := by
    intro n
    induction n with
    | zero => intro x u hu; right; rw [lookF, hu]
    | succ n ih =>
      intro x u hu
      rw [lookF, hu]
      apply evalWith_release_ok_or_diverge
      intro y hy
      obtain ⟨w, hw⟩ := hc.2 x u hu y hy
      exact ih y w hw
  exact this _ x u hu

/-- C06: in a wrapping build with every reachable variable bound, `eval` fails to return exactly if a cycle is reachable; otherwise it
returns a value. -/
theorem C06_diverges_iff (ctx : SimpleScope) (t : SimpleTerm) (hc : Closed ctx t) :
    (eval .release t ctx = .diverge ↔ CyclicFrom ctx t) ∧ ((∃ n, eval .release t ctx = .ok n) ↔ ¬ CyclicFrom ctx t) := by
  constructor
  · constructor
    · intro h
      apply Classical.byContradiction
      intro hn
      exact C06_acyclic_terminates .release ctx t hn h
    · intro h
      rcases closed_release_ok_or_diverge hc with ⟨n, hn⟩ | hd
      · exact absurd hn (C06_cyclic_no_value .release ctx t h n)
      · exact hd
  · constructor
    · rintro ⟨n, hn⟩ h
      exact C06_cyclic_no_value .release ctx t h n hn
    · intro h
      rcases closed_release_ok_or_diverge hc with h' | hd
      · exact h'
      · exact absurd hd (C06_acyclic_terminates .release ctx t h)

/-- A chain of definitions `a = b * 2`, `b = c + 1`, `c = 5` evaluates; adding `c = a` makes it diverge. -/
def exChain : SimpleScope :=
  [(str% "a", .mul (.var (str% "b")) (.scalar 2)), (str% "b", .add (.var (str% "c")) (.scalar 1)), (str% "c", .scalar 5)]
/-- The cyclic variant. -/
def exLoop : SimpleScope :=
  [(str% "a", .mul (.var (str% "b")) (.scalar 2)), (str% "b", .add (.var (str% "c")) (.scalar 1)), (str% "c", .var (str% "a"))]

example : eval .debug (.var (str% "a")) exChain = .ok 12 ∧ eval .debug (.var (str% "a")) exLoop = .diverge := by decide

example : CyclicFrom exLoop (.var (str% "a")) := by
  refine ⟨str% "a", str% "a", .here, .inl rfl, ?_⟩
  refine .trans (y := str% "b") (.step ⟨_, rfl, .mulL .here⟩) (.trans (y := str% "c") (.step ⟨_, rfl, .addL .here⟩) (.step ⟨_, rfl, .here⟩))

/-! ### C01 for scopes with equations as bindings -/

theorem evalWith_release_value {g : Str → Res Nat} {ρ : Str → Nat} {t : SimpleTerm} {v : Nat} (hl : LitsFit t)
    (hg : ∀ x m, Occurs x t → g x = .ok m → m = ρ x % 2 ^ 128) (h : evalWith .release g t = .ok v) :
    v = denote ρ t % 2 ^ 128 := by
  induction t generalizing v with
  | value n => cases h; rw [denote, Nat.mod_eq_of_lt (hl n (.inl .refl))]
  | scalar n => cases h; rw [denote, Nat.mod_eq_of_lt (hl n (.inr .refl))]
  | var x => exact hg x v .here h
  | add l r ihl ihr =>
    simp only [evalWith] at h
    cases hel : evalWith .release g l with
    | err m => rw [hel] at h; cases h
    | panic => rw [hel] at h; cases h
    | diverge => rw [hel] at h; cases h
    | ok a =>
      cases her : evalWith .release g r with
      | err m => rw [hel, her] at h; cases h
      | panic => rw [hel, her] at h; cases h
      | diverge => rw [hel, her] at h; cases h
      | ok c =>
        rw [hel, her] at h
        simp only [Res.bind_ok, addU128_release, Res.ok.injEq] at h
        rw [← h, ihl (litsFit_add hl).1 (fun x m hx => hg x m (.addL hx)) hel,
          ihr (litsFit_add hl).2 (fun x m hx => hg x m (.addR hx)) her, denote, u128Size, ← Nat.add_mod]
  | mul l r ihl ihr =>
    simp only [evalWith] at h
    cases hel : evalWith .release g l with
    | err m => rw [hel] at h; cases h
    | panic => rw [hel] at h; cases h
    | diverge => rw [hel] at h; cases h
    | ok a =>
      cases her : evalWith .release g r with
      | err m => rw [hel, her] at h; cases h
      | panic => rw [hel, her] at h; cases h
      | diverge => rw [hel, her] at h; cases h
      | ok c =>
        rw [hel, her] at h
        simp only [Res.bind_ok, mulU128_release, Res.ok.injEq] at h
        rw [← h, ihl (litsFit_mul hl).1 (fun x m hx => hg x m (.mulL hx)) hel,
          ihr (litsFit_mul hl).2 (fun x m hx => hg x m (.mulR hx)) her, denote, u128Size, ← Nat.mul_mod]

/-- C01 for arbitrary scopes, whose bindings may be equations over other variables: whatever assignment `ρ` solves the scope's
equations modulo 2^128, a value returned by `eval` is the arithmetic value under `ρ` modulo 2^128. -/
theorem C01_eval_recursive_scope (ctx : SimpleScope) (ρ : Str → Nat) (t : SimpleTerm) (v : Nat)
    (hs : ∀ x u, binding ctx x = some u → LitsFit u ∧ ρ x % 2 ^ 128 = denote ρ u % 2 ^ 128) (hl : LitsFit t)
    (h : eval .release t ctx = .ok v) : v = denote ρ t % 2 ^ 128 := by
  have key : ∀ n x m, lookF .release ctx n x = .ok m → m = ρ x % 2 ^ 128 := by
    intro n
    induction n with
    | zero =>
      intro x m hm
      rw [lookF] at hm
      cases hb : binding ctx x with
      | none => rw [hb] at hm; cases hm
      | some u => rw [hb] at hm; cases hm
    | succ n ih =>
      intro x m hm
      rw [lookF] at hm
      cases hb : binding ctx x with
      | none => rw [hb] at hm; cases hm
      | some u =>
        rw [hb] at hm
        rw [(hs x u hb).2]
        exact evalWith_release_value (hs x u hb).1 (fun y k _ hk => ih y k hk) hm
  rw [eval_eq] at h
  exact evalWith_release_value hl (fun x m _ hm => key _ x m hm) h

/-- The chain scope is solved by `c = 5, b = 6, a = 12`. -/
example : eval .release (.add (.var (str% "a")) (.var (str% "b"))) exChain = .ok 18
    ∧ denote (fun x => if x = str% "a" then 12 else if x = str% "b" then 6 else 5)
        (.add (.var (str% "a")) (.var (str% "b"))) = 18 := by decide

end Swc
