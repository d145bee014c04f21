/-
C115: what the evaluation of a call costs: how many points are evaluated, how many steps an evaluation takes and how deep it nests.
-/
import Verif.Spec.Cost
import Verif.Props.WeightTextExists
import Verif.Props.Cyclic
import Verif.Props.Language
import Mathlib.Data.Finset.Powerset

namespace Swc

open Spec Term

/-! ### Evaluation -/

theorem addU128_iff {b : Build} {v w u : Nat} : addU128 b v w = .ok u ↔ In128 b (v + w) u := by
  unfold addU128 In128 u128Size
  by_cases h : v + w < 2 ^ 128
  · rw [if_pos h, Nat.mod_eq_of_lt h]
    exact ⟨fun e => ⟨(Res.ok.inj e).symm, fun _ => h⟩, fun e => by rw [e.1]⟩
  · rw [if_neg h]
    cases b with
    | debug => exact ⟨(fun e => nomatch e), fun e => absurd (e.2 rfl) h⟩
    | release => exact ⟨fun e => ⟨(Res.ok.inj e).symm, (fun e => nomatch e)⟩, fun e => by rw [e.1]⟩

theorem mulU128_iff {b : Build} {v w u : Nat} : mulU128 b v w = .ok u ↔ In128 b (v * w) u := by
  unfold mulU128 In128 u128Size
  by_cases h : v * w < 2 ^ 128
  · rw [if_pos h, Nat.mod_eq_of_lt h]
    exact ⟨fun e => ⟨(Res.ok.inj e).symm, fun _ => h⟩, fun e => by rw [e.1]⟩
  · rw [if_neg h]
    cases b with
    | debug => exact ⟨(fun e => nomatch e), fun e => absurd (e.2 rfl) h⟩
    | release => exact ⟨fun e => ⟨(Res.ok.inj e).symm, (fun e => nomatch e)⟩, fun e => by rw [e.1]⟩

theorem evalF_add (b : Build) (s : SimpleScope) (k : Nat) (x y : SimpleTerm) :
    evalF b s k (.add x y) = (do let a ← evalF b s k x; let c ← evalF b s k y; addU128 b a c) := by
  cases k <;> rfl

theorem evalF_mul (b : Build) (s : SimpleScope) (k : Nat) (x y : SimpleTerm) :
    evalF b s k (.mul x y) = (do let a ← evalF b s k x; let c ← evalF b s k y; mulU128 b a c) := by
  cases k <;> rfl

theorem evals_of_evalF {b : Build} {s : SimpleScope} (k : Nat) (t : SimpleTerm) (v : Nat) (h : evalF b s k t = .ok v) : ∃ n d, Evals b s t v n d := by
  induction k generalizing t v with
  | zero =>
    induction t generalizing v with
    | value x => cases h; exact ⟨_, _, .value⟩
    | scalar x => cases h; exact ⟨_, _, .scalar⟩
    | var x =>
      have e : evalF b s 0 (.var x) = match Scope.get s x with | some _ => .diverge | none => .err (notFoundMsg x) := rfl
      rw [e] at h
      cases hg : Scope.get s x <;> rw [hg] at h <;> cases h
    | add x y ih1 ih2 =>
      rw [evalF_add] at h
      obtain ⟨a, ha, h⟩ := bind_eq_ok h
      obtain ⟨c, hc, h⟩ := bind_eq_ok h
      obtain ⟨n, d, h1⟩ := ih1 a ha
      obtain ⟨m, e, h2⟩ := ih2 c hc
      exact ⟨_, _, .add h1 h2 (addU128_iff.1 h)⟩
    | mul x y ih1 ih2 =>
      rw [evalF_mul] at h
      obtain ⟨a, ha, h⟩ := bind_eq_ok h
      obtain ⟨c, hc, h⟩ := bind_eq_ok h
      obtain ⟨n, d, h1⟩ := ih1 a ha
      obtain ⟨m, e, h2⟩ := ih2 c hc
      exact ⟨_, _, .mul h1 h2 (mulU128_iff.1 h)⟩
  | succ k ih =>
    induction t generalizing v with
    | value x => cases h; exact ⟨_, _, .value⟩
    | scalar x => cases h; exact ⟨_, _, .scalar⟩
    | var x =>
      have e : evalF b s (k + 1) (.var x) = match Scope.get s x with | some t => evalF b s k t | none => .err (notFoundMsg x) := rfl
      rw [e] at h
      cases hg : Scope.get s x with
      | none => rw [hg] at h; cases h
      | some t =>
        rw [hg] at h
        obtain ⟨n, d, h1⟩ := ih t v h
        exact ⟨_, _, .var (by rw [binding_eq_get]; exact hg) h1⟩
    | add x y ih1 ih2 =>
      rw [evalF_add] at h
      obtain ⟨a, ha, h⟩ := bind_eq_ok h
      obtain ⟨c, hc, h⟩ := bind_eq_ok h
      obtain ⟨n, d, h1⟩ := ih1 a ha
      obtain ⟨m, e, h2⟩ := ih2 c hc
      exact ⟨_, _, .add h1 h2 (addU128_iff.1 h)⟩
    | mul x y ih1 ih2 =>
      rw [evalF_mul] at h
      obtain ⟨a, ha, h⟩ := bind_eq_ok h
      obtain ⟨c, hc, h⟩ := bind_eq_ok h
      obtain ⟨n, d, h1⟩ := ih1 a ha
      obtain ⟨m, e, h2⟩ := ih2 c hc
      exact ⟨_, _, .mul h1 h2 (mulU128_iff.1 h)⟩

theorem evalF_of_evals {b : Build} {s : SimpleScope} {t : SimpleTerm} {v n d : Nat} (h : Evals b s t v n d) (k : Nat) (hk : d ≤ k) :
    evalF b s k t = .ok v := by
  induction h generalizing k with
  | value => cases k <;> rfl
  | scalar => cases k <;> rfl
  | add _ _ hu ih1 ih2 => rw [evalF_add, ih1 k (by omega), Res.bind_ok, ih2 k (by omega), Res.bind_ok, addU128_iff.2 hu]
  | mul _ _ hu ih1 ih2 => rw [evalF_mul, ih1 k (by omega), Res.bind_ok, ih2 k (by omega), Res.bind_ok, mulU128_iff.2 hu]
  | @var x t v n d ht _ ih =>
    cases k with
    | zero => omega
    | succ k =>
      have e : evalF b s (k + 1) (.var x) = match Scope.get s x with | some t => evalF b s k t | none => .err (notFoundMsg x) := rfl
      have hg : Scope.get s x = some t := (binding_eq_get s x).symm.trans ht
      rw [e, hg]
      exact ih k (by omega)

/-- C115: the evaluation of an equation gives `v` exactly if there is such an evaluation by the rules of arithmetic, with some number of steps. -/
theorem C115_evals (b : Build) (s : SimpleScope) (t : SimpleTerm) (v : Nat) : eval b t s = .ok v ↔ ∃ n d, Evals b s t v n d := by
  constructor
  · exact evals_of_evalF _ t v
  · rintro ⟨n, d, h⟩
    have h' := evalF_of_evals h d (Nat.le_refl _)
    rw [← (C06_fuel_irrelevant b s t).2.1 d (by rw [h']; exact (fun h => nomatch h)), h']

/-- C115: where variables stand for numbers, an evaluation takes as many steps as the equation has parts, and nests as deep as the equation is high. -/
theorem C115_exact {b : Build} {s : SimpleScope} (hs : NumScope s) {t : SimpleTerm} {v n d : Nat} (h : Evals b s t v n d) : n = parts t ∧ d = height t := by
  induction h with
  | value => exact ⟨rfl, rfl⟩
  | scalar => exact ⟨rfl, rfl⟩
  | add _ _ _ ih1 ih2 => exact ⟨by rw [parts, ih1.1, ih2.1], by rw [height, ih1.2, ih2.2]⟩
  | mul _ _ _ ih1 ih2 => exact ⟨by rw [parts, ih1.1, ih2.1], by rw [height, ih1.2, ih2.2]⟩
  | var ht hv =>
    obtain ⟨n, rfl | rfl⟩ := hs _ _ ht
    · cases hv; exact ⟨rfl, rfl⟩
    · cases hv; exact ⟨rfl, rfl⟩

/-- C115: value, number of steps and nesting are determined by equation and scope. -/
theorem C115_unique {b : Build} {s : SimpleScope} {t : SimpleTerm} {v n d v' n' d' : Nat} (h : Evals b s t v n d) (h' : Evals b s t v' n' d') :
    v = v' ∧ n = n' ∧ d = d' := by
  induction h generalizing v' n' d' with
  | value => cases h'; exact ⟨rfl, rfl, rfl⟩
  | scalar => cases h'; exact ⟨rfl, rfl, rfl⟩
  | add _ _ hu ih1 ih2 =>
    cases h' with
    | add hx hy hu' =>
      obtain ⟨rfl, rfl, rfl⟩ := ih1 hx
      obtain ⟨rfl, rfl, rfl⟩ := ih2 hy
      exact ⟨hu.1.trans hu'.1.symm, rfl, rfl⟩
  | mul _ _ hu ih1 ih2 =>
    cases h' with
    | mul hx hy hu' =>
      obtain ⟨rfl, rfl, rfl⟩ := ih1 hx
      obtain ⟨rfl, rfl, rfl⟩ := ih2 hy
      exact ⟨hu.1.trans hu'.1.symm, rfl, rfl⟩
  | var ht _ ih =>
    cases h' with
    | var ht' hv =>
      rw [ht] at ht'
      obtain rfl := Option.some.inj ht'
      obtain ⟨rfl, rfl, rfl⟩ := ih hv
      exact ⟨rfl, rfl, rfl⟩

/-- The names `x`, `xx`, `xxx` and so on. -/
def dblName (i : Nat) : Str := List.replicate (i + 1) 'x'

/-- The first variable is zero and each other one twice the previous one. -/
def dblTerm : Nat → SimpleTerm
  | 0 => .scalar 0
  | i + 1 => .add (.var (dblName i)) (.var (dblName i))

/-- A scope with these variables. -/
def dblScope : Nat → SimpleScope
  | 0 => [(dblName 0, dblTerm 0)]
  | k + 1 => dblScope k ++ [(dblName (k + 1), dblTerm (k + 1))]

theorem binding_append_or {T : Type} (l m : List (Str × T)) (x : Str) : binding (l ++ m) x = (binding l x).or (binding m x) := by
  induction l with
  | nil => simp [binding]
  | cons p l ih =>
    obtain ⟨k, v⟩ := p
    rw [List.cons_append, binding, binding]
    by_cases h : x = k
    · rw [if_pos h, if_pos h]; rfl
    · rw [if_neg h, if_neg h, ih]

theorem dblName_inj {i j : Nat} (h : dblName i = dblName j) : i = j := by
  have := congrArg List.length h
  simpa [dblName] using this

theorem dblScope_keys (k : Nat) : (dblScope k).map (·.1) = (List.range (k + 1)).map dblName := by
  induction k with
  | zero => rfl
  | succ k ih => rw [dblScope, List.map_append, ih, List.range_succ (n := k + 1), List.map_append]; rfl

theorem binding_none_of_keys {T : Type} {l : List (Str × T)} {x : Str} (h : x ∉ l.map (·.1)) : binding l x = none := by
  induction l with
  | nil => rfl
  | cons p l ih =>
    obtain ⟨k, v⟩ := p
    rw [List.map_cons, List.mem_cons, not_or] at h
    rw [binding, if_neg h.1, ih h.2]

theorem dblScope_binding (k i : Nat) (h : i ≤ k) : binding (dblScope k) (dblName i) = some (dblTerm i) := by
  induction k with
  | zero =>
    obtain rfl : i = 0 := by omega
    rfl
  | succ k ih =>
    rw [dblScope, binding_append_or]
    by_cases hi : i ≤ k
    · rw [ih hi]; rfl
    · obtain rfl : i = k + 1 := by omega
      rw [binding_none_of_keys]
      · simp [binding]
      · rw [dblScope_keys, List.mem_map]
        rintro ⟨j, hj, he⟩
        have := dblName_inj he
        rw [List.mem_range] at hj
        omega

theorem dblName_lt {i j : Nat} (h : i < j) : compare (dblName i) (dblName j) = .lt := by
  rw [cmpStr_lt]
  have key : ∀ m n : Nat, m < n → List.replicate m 'x' < List.replicate n 'x' := by
    intro m
    induction m with
    | zero => intro n hn; cases n with
      | zero => omega
      | succ n => exact List.nil_lt_cons _ _
    | succ m ih => intro n hn; cases n with
      | zero => omega
      | succ n => exact List.cons_lt_cons_self.2 (ih n (by omega))
  exact key _ _ (by omega)

theorem dblScope_sorted (k : Nat) : (dblScope k).Pairwise fun p q => compare p.1 q.1 = .lt := by
  rw [← List.pairwise_map (f := fun p : Str × SimpleTerm => p.1) (R := fun a b : Str => compare a b = .lt), dblScope_keys, List.pairwise_map]
  exact List.pairwise_lt_range.imp fun h => dblName_lt h

/-- C115: in general an evaluation can take exponentially many steps: in a scope with `k + 1` variables of which each is twice the previous one, the last one takes
`2 ^ (k + 2) - 2`. -/
theorem C115_doubling (b : Build) (k : Nat) :
    ∃ (s : SimpleScope) (x : Str), s.Pairwise (fun p q => compare p.1 q.1 = .lt) ∧ s.length = k + 1 ∧ Evals b s (.var x) 0 (2 ^ (k + 2) - 2) (2 * k + 2) := by
  refine ⟨dblScope k, dblName k, dblScope_sorted k, ?_, ?_⟩
  · have := congrArg List.length (dblScope_keys k)
    simpa using this
  · have key : ∀ i ≤ k, Evals b (dblScope k) (.var (dblName i)) 0 (2 ^ (i + 2) - 2) (2 * i + 2) := by
      intro i hi
      induction i with
      | zero => exact .var (dblScope_binding k 0 hi) .scalar
      | succ i ih =>
        have h := ih (by omega)
        have := Evals.var (dblScope_binding k (i + 1) hi) (.add h h ⟨rfl, fun _ => by decide⟩)
        have e1 : 2 ^ (i + 2) - 2 + (2 ^ (i + 2) - 2) + 1 + 1 = 2 ^ (i + 1 + 2) - 2 := by
          have : 4 ≤ 2 ^ (i + 2) := by rw [Nat.pow_add]; exact Nat.le_mul_of_pos_left _ (Nat.two_pow_pos i)
          have e2 : 2 ^ (i + 1 + 2) = 2 * 2 ^ (i + 2) := by rw [show i + 1 + 2 = (i + 2) + 1 by omega, Nat.pow_succ 2 (i + 2), Nat.mul_comm]
          rw [e2]
          generalize 2 ^ (i + 2) = z at this ⊢
          omega
        rw [e1, Nat.max_self] at this
        rw [show 2 * (i + 1) + 2 = 2 * i + 2 + 1 + 1 by omega]
        exact this
    exact key k (Nat.le_refl _)

/-! ### The points -/

/-- The components whose lowest and highest value differ, and how many points there are. -/
theorem corners_count {d : Dimension} {m : CompareMethod} {old new : Option SimpleExtrinsic} {scopes : List SimpleScope} (hn : scopes.Nodup)
    (hm : ∀ s, s ∈ scopes ↔ Corner d m old new s) (hne : scopes ≠ []) (hinst : ∀ x, Component old new x → (∃ l, IsLow m old new x l) ∧ ∃ h, IsHigh m old new x h)
    {D : List Str} (hD : D.Nodup) (hd : ∀ x, x ∈ D ↔ Component old new x ∧ ∃ l h, IsLow m old new x l ∧ IsHigh m old new x h ∧ l ≠ h) :
    scopes.length = 2 ^ D.length := by
  classical
  have hlo : ∀ x, ∃ l, Component old new x → IsLow m old new x l := fun x =>
    (Classical.em (Component old new x)).elim (fun hx => (hinst x hx).1.imp fun _ h _ => h) fun hx => ⟨0, fun h => absurd h hx⟩
  have hhi : ∀ x, ∃ l, Component old new x → IsHigh m old new x l := fun x =>
    (Classical.em (Component old new x)).elim (fun hx => (hinst x hx).2.imp fun _ h _ => h) fun hx => ⟨0, fun h => absurd h hx⟩
  choose lo hlo using hlo
  choose hi hhi using hhi
  have hval : ∀ s, Corner d m old new s → ∀ x, Component old new x → binding s x = some (.scalar (lo x)) ∨ binding s x = some (.scalar (hi x)) := by
    intro s hs x hx
    obtain ⟨n, hn, h | h⟩ := hs.2.2.2.1 x hx
    · rw [hn, low_unique h (hlo x hx)]; exact .inl rfl
    · rw [hn, high_unique h (hhi x hx)]; exact .inr rfl
  have hdiff : ∀ x, x ∈ D ↔ Component old new x ∧ lo x ≠ hi x := by
    intro x
    rw [hd]
    constructor
    · rintro ⟨hx, l, h, h1, h2, h3⟩
      rw [low_unique h1 (hlo x hx), high_unique h2 (hhi x hx)] at h3
      exact ⟨hx, h3⟩
    · rintro ⟨hx, hne⟩
      exact ⟨hx, _, _, hlo x hx, hhi x hx, hne⟩
  have hcard : scopes.toFinset.card = D.toFinset.powerset.card := by
    refine Finset.card_bij (fun s _ => D.toFinset.filter fun x => binding s x = some (Term.scalar (hi x))) ?_ ?_ ?_
    · intro s _
      exact Finset.mem_powerset.2 (Finset.filter_subset _ _)
    · intro s hs t ht heq
      have hs := (hm s).1 (List.mem_toFinset.1 hs)
      have ht := (hm t).1 (List.mem_toFinset.1 ht)
      refine BMap.ext hs.1 ht.1 fun x => ?_
      rw [← binding_eq_get, ← binding_eq_get]
      by_cases hx : Component old new x
      · by_cases hxd : x ∈ D
        · have hiff : binding s x = some (.scalar (hi x)) ↔ binding t x = some (.scalar (hi x)) := by
            have := congrArg (x ∈ ·) heq
            simpa [hxd] using this
          rcases hval s hs x hx with h1 | h1
          · rcases hval t ht x hx with h2 | h2
            · rw [h1, h2]
            · rw [h2, hiff.2 h2]
          · rw [h1, hiff.1 h1]
        · have he : lo x = hi x := Classical.byContradiction fun h => hxd ((hdiff x).2 ⟨hx, h⟩)
          have h1 : binding s x = some (.scalar (hi x)) := (hval s hs x hx).elim (fun h => by rw [h, he]) id
          have h2 : binding t x = some (.scalar (hi x)) := (hval t ht x hx).elim (fun h => by rw [h, he]) id
          rw [h1, h2]
      · by_cases hr : x = str% "READ"
        · rw [hr, hs.2.1, ht.2.1]
        · by_cases hw : x = str% "WRITE"
          · rw [hw, hs.2.2.1, ht.2.2.1]
          · have hnone : ∀ s, Corner d m old new s → binding s x = none := by
              intro s hs
              cases hb : binding s x with
              | none => rfl
              | some u => exact absurd (hs.2.2.2.2 x u hb) (by simp [hr, hw, hx])
            rw [hnone s hs, hnone t ht]
    · intro S hS
      have hS := Finset.mem_powerset.1 hS
      obtain ⟨s0, hs0⟩ := List.exists_mem_of_ne_nil _ hne
      have hs0 := (hm s0).1 hs0
      obtain ⟨s, hs, _⟩ := corner_exists s0 hs0.1 D hD (fun x => if x ∈ S then hi x else lo x) (fun x => if x ∈ S then hi x else lo x)
      have hin : ∀ x ∈ D, binding s x = some (.scalar (if x ∈ S then hi x else lo x)) := fun x hx => ((hs.2 x).1 hx).elim id id
      have hout : ∀ x, x ∉ D → binding s x = binding s0 x := fun x hx => (hs.2 x).2 hx
      have hnr : ∀ x, x ∈ D → Component old new x := fun x hx => ((hdiff x).1 hx).1
      have hc : Corner d m old new s := by
        refine ⟨hs.1, ?_, ?_, ?_, ?_⟩
        · rw [hout _ fun h => (hnr _ h).2.1 rfl]; exact hs0.2.1
        · rw [hout _ fun h => (hnr _ h).2.2 rfl]; exact hs0.2.2.1
        · intro x hx
          by_cases hxd : x ∈ D
          · refine ⟨_, hin x hxd, ?_⟩
            by_cases h : x ∈ S
            · rw [if_pos h]; exact .inr (hhi x hx)
            · rw [if_neg h]; exact .inl (hlo x hx)
          · rw [hout x hxd]; exact hs0.2.2.2.1 x hx
        · intro x u hu
          by_cases hxd : x ∈ D
          · exact .inr (.inr (hnr x hxd))
          · rw [hout x hxd] at hu; exact hs0.2.2.2.2 x u hu
      refine ⟨s, List.mem_toFinset.2 ((hm s).2 hc), ?_⟩
      ext x
      rw [Finset.mem_filter, List.mem_toFinset]
      constructor
      · rintro ⟨hx, hb⟩
        rw [hin x hx] at hb
        by_contra h
        rw [if_neg h] at hb
        exact ((hdiff x).1 hx).2 (Term.scalar.inj (Option.some.inj hb))
      · intro h
        have hx := List.mem_toFinset.1 (hS h)
        exact ⟨hx, by rw [hin x hx, if_pos h]⟩
  rw [List.toFinset_card_of_nodup hn, Finset.card_powerset, List.toFinset_card_of_nodup hD] at hcard
  exact hcard

/-- C115: a comparison evaluates `2 ^ k` points, where `k` is the number of components whose lowest and highest value differ, and `k` is at most 16.  At each of
them each version is evaluated once, with as many steps as its equation (without the storage costs, in the proof dimension) has parts, and nested as deep as it is
high. -/
theorem C115_points {b : Build} {ho : HashOrder} {old new : Option SimpleExtrinsic} {params : CompareParams} {r : TermChange}
    (h : compareExtrinsics b ho old new params = .ok r) :
    ∃ (scopes : List SimpleScope) (D : List Str), extendScopedComponents ho (old.map (dropStorage params.unit)) (new.map (dropStorage params.unit)) params.method
        (baseScope params.unit) = .ok scopes ∧ scopes.Nodup ∧ (∀ s, s ∈ scopes ↔ Corner params.unit params.method old new s) ∧
      D.Nodup ∧ (∀ x, x ∈ D ↔ Component old new x ∧ ∃ l h, IsLow params.method old new x l ∧ IsHigh params.method old new x h ∧ l ≠ h) ∧
      scopes.length = 2 ^ D.length ∧ D.length ≤ 16 ∧
      ∀ s ∈ scopes, ∀ e, (old = some e ∨ new = some e) → ∃ v, Evals b s (dropStorage params.unit e).term v (parts (dropStorage params.unit e).term)
        (height (dropStorage params.unit e).term) := by
  classical
  have hne := compareExtrinsics_not_none h
  have hn := (compare_ok h).1
  have hd : old.map (dropStorage params.unit) ≠ none ∨ new.map (dropStorage params.unit) ≠ none := by
    simpa using hne
  obtain ⟨_, h2⟩ := extend_spec ho (old.map (dropStorage params.unit)) (new.map (dropStorage params.unit)) hd params.method
    (baseScope params.unit) (sorted_baseScope _)
  rw [freeIn_base, unambiguous_drop, isLow_drop, isHigh_drop] at h2
  obtain ⟨lo, hi, scopes, e, hlh, hmem, hsort⟩ := h2 hn
  have hmem' : ∀ s, s ∈ scopes ↔ Corner params.unit params.method old new s := fun s => by
    rw [hmem, corner_iff params.unit params.method old new lo hi hlh]
  have hsne : scopes ≠ [] := by
    obtain ⟨_, scopes', hm', _, l1, l2, hs', _⟩ := compare_ok h
    intro hc
    have : r.scope ∈ scopes' := by rw [← hs']; simp
    have := (hmem' _).2 ((hm' _).1 this)
    rw [hc] at this
    cases this
  let C := freesOf idOrder (old.map (dropStorage params.unit)) (new.map (dropStorage params.unit)) (baseScope params.unit)
  have hC : ∀ x, x ∈ C ↔ Component old new x := fun x => by rw [mem_freesOf, freeIn_base]
  let D := C.filter fun x => decide (∃ l h, IsLow params.method old new x l ∧ IsHigh params.method old new x h ∧ l ≠ h)
  have hDn : D.Nodup := nodup_freesOf.filter _
  have hD : ∀ x, x ∈ D ↔ Component old new x ∧ ∃ l h, IsLow params.method old new x l ∧ IsHigh params.method old new x h ∧ l ≠ h := fun x => by
    simp only [D, List.mem_filter, hC, decide_eq_true_eq]
  refine ⟨scopes, D, e, sorted_nodup hsort, hmem', hDn, hD, ?_, ?_, ?_⟩
  · exact corners_count (sorted_nodup hsort) hmem' hsne (fun x hx => ⟨⟨_, (hlh x hx).1⟩, _, (hlh x hx).2⟩) hDn hD
  · exact Nat.le_of_not_lt fun hlt => hn (.inl ⟨D, hDn, hlt, fun x hx => ((hD x).1 hx).1⟩)
  · intro s hs x hx
    have hc := (hmem' s).1 hs
    obtain ⟨v, hv⟩ := compare_ok_eval h s hc x hx
    rw [← eval_costed hc.2.1 hc.2.2.1, ← dropStorage_term] at hv
    obtain ⟨n, d, he⟩ := (C115_evals _ _ _ _).1 hv
    obtain ⟨h1, h2⟩ := C115_exact (corner_numScope hc) he
    exact ⟨v, h1 ▸ h2 ▸ he⟩

/-- A call with the components `x`, `xx`, `xxx` and so on, without documented ranges. -/
def manyComps (k : Nat) : SimpleExtrinsic :=
  ⟨str% "many", str% "p.rs", (List.range k).foldl (fun t i => .add t (.var (dblName i))) (.value 1), none⟩

theorem manyComps_occurs (k : Nat) (x : Str) : Occurs x (manyComps k).term ↔ ∃ i < k, x = dblName i := by
  show Occurs x ((List.range k).foldl (fun t i => Term.add t (.var (dblName i))) (Term.value 1)) ↔ _
  induction k with
  | zero => exact ⟨(fun h => nomatch h), fun ⟨i, hi, _⟩ => absurd hi (Nat.not_lt_zero i)⟩
  | succ k ih =>
    rw [List.range_succ, List.foldl_append, List.foldl_cons, List.foldl_nil]
    constructor
    · intro h
      cases h with
      | addL h => obtain ⟨i, hi, e⟩ := ih.1 h; exact ⟨i, by omega, e⟩
      | addR h => cases h; exact ⟨k, by omega, rfl⟩
    · rintro ⟨i, hi, rfl⟩
      by_cases h : i < k
      · exact .addL (ih.2 ⟨i, h, rfl⟩)
      · obtain rfl : i = k := by omega
        exact .addR .here

/-- C115: all of these numbers of points occur, up to 65536. -/
theorem C115_reached (ho : HashOrder) (params : CompareParams) (hm : params.method = .guessWorst) (k : Nat) (hk : k ≤ 16) :
    ∃ (e : SimpleExtrinsic) (r : TermChange) (scopes : List SimpleScope), compareExtrinsics .release ho (some e) (some e) params = .ok r ∧ scopes.Nodup ∧
      (∀ s, s ∈ scopes ↔ Corner params.unit params.method (some e) (some e) s) ∧ scopes.length = 2 ^ k := by
  have hx : ∀ i, dblName i ≠ str% "READ" ∧ dblName i ≠ str% "WRITE" := by
    intro i
    rw [dblName, List.replicate_succ]
    exact ⟨(fun h => nomatch h), (fun h => nomatch h)⟩
  have hcomp : ∀ x, Component (some (manyComps k)) (some (manyComps k)) x ↔ x ∈ (List.range k).map dblName := by
    intro x
    rw [List.mem_map]
    constructor
    · rintro ⟨⟨e, he, ho⟩, _⟩
      obtain rfl : e = manyComps k := he.elim (fun h => (Option.some.inj h).symm) fun h => (Option.some.inj h).symm
      obtain ⟨i, hi, rfl⟩ := (manyComps_occurs k x).1 ho
      exact ⟨i, List.mem_range.2 hi, rfl⟩
    · rintro ⟨i, hi, rfl⟩
      exact ⟨⟨_, .inl rfl, (manyComps_occurs k _).2 ⟨i, List.mem_range.1 hi, rfl⟩⟩, hx i⟩
  have hnd : ((List.range k).map dblName).Nodup := List.nodup_range.map_on fun i _ j _ h => dblName_inj h
  have hnr : ¬ Refused params.method (some (manyComps k)) (some (manyComps k)) := by
    rintro (⟨l, hl, hlt, hc⟩ | ⟨he, _⟩)
    · have := nodup_length_le hl fun x hx => (hcomp x).1 (hc x hx)
      rw [List.length_map, List.length_range] at this
      omega
    · rw [hm] at he; rcases he with h | h <;> cases h
  obtain ⟨r, hr⟩ := (C26_total_release ho _ _ params (.inl (by simp))).2 hnr
  obtain ⟨scopes, D, _, h1, h2, h3, h4, h5, _⟩ := C115_points hr
  refine ⟨manyComps k, r, scopes, hr, h1, h2, ?_⟩
  rw [h5]
  congr 1
  have hno : ∀ x r, ¬ Annotated (some (manyComps k)) (some (manyComps k)) x r := by
    rintro x r ⟨e, m, he, hc, _⟩
    obtain rfl : e = manyComps k := he.elim (fun h => (Option.some.inj h).symm) fun h => (Option.some.inj h).symm
    exact nomatch hc
  have hD : ∀ x, x ∈ D ↔ x ∈ (List.range k).map dblName := by
    intro x
    rw [h4, ← hcomp, hm]
    exact ⟨fun h => h.1, fun h => ⟨h, 0, 100, .inl ⟨hno x, rfl⟩, .inl ⟨hno x, rfl⟩, by decide⟩⟩
  have := ((List.perm_ext_iff_of_nodup h3 hnd).2 hD).length_eq
  rw [this, List.length_map, List.length_range]

/-! ### How high equations are -/

theorem height_pos {T : Type} (t : Term T) : 1 ≤ height t := by
  cases t <;> simp [height]

theorem height_intoChromatic (d : Dimension) (t : SimpleTerm) : height (intoChromatic d t) = height t := by
  induction t with
  | value => rfl
  | scalar => rfl
  | var => rfl
  | add _ _ ih1 ih2 => rw [intoChromatic, height, height, ih1, ih2]
  | mul _ _ ih1 ih2 => rw [intoChromatic, height, height, ih1, ih2]

theorem height_spliceAdd (s t : ChromaticTerm) : height (spliceAdd s t) ≤ max (height s) (height t) + 1 := by
  induction s generalizing t with
  | add a c ih1 ih2 =>
    cases t with
    | add a' c' =>
      have h1 := ih1 a'
      have h2 := ih2 c'
      simp only [spliceAdd, height]
      omega
    | _ => simp only [spliceAdd, height]; omega
  | value x =>
    cases t with
    | value y =>
      rw [spliceAdd]
      split
      · simp [height]
      · split <;> simp [height]
    | _ => simp only [spliceAdd, height]; omega
  | _ => simp only [spliceAdd, height]; omega

theorem nesting_pos (e : Expr) : 1 ≤ nesting e := by
  cases e <;> simp [nesting]

theorem height_reads1 {e : Expr} {t : SimpleTerm} (h : Reads1 e t) : height t ≤ nesting e + 1 := by
  induction h with
  | lit | name => simp [height, nesting]
  | cast _ ih | paren _ ih | refTime _ _ ih | into _ ih => simp only [nesting]; omega
  | @reads _ a _ _ _ _ ih | @writes _ a _ _ _ _ ih =>
    have := nesting_pos a
    simp only [height, nesting, nestings]; omega
  | add _ _ ih1 ih2 | mul _ _ ih1 ih2 => simp only [height, nesting, nestings]; omega
  | fromRefTime _ _ ih => simp only [nesting, nestings]; omega
  | zero => simp only [height, nesting]; omega

theorem height_countOf {a : Expr} {t : ChromaticTerm} (h : CountOf a t) : height t ≤ nesting a + 1 := by
  rcases h with ⟨l, n, rfl, _, rfl⟩ | ⟨_, s, hs, rfl⟩
  · simp [height, nesting]
  · rw [height_intoChromatic]; exact height_reads1 hs

theorem height_reads2 {e : Expr} {t : ChromaticTerm} (h : Reads2 e t) : height t ≤ nesting e + 1 := by
  induction h with
  | name => simp [height, nesting]
  | cast _ ih | paren _ ih | into _ ih => simp only [nesting]; omega
  | @reads _ a _ _ _ hc | @writes _ a _ _ _ hc =>
    have := nesting_pos a
    have := height_countOf hc
    simp only [height, nesting, nestings]; omega
  | add _ _ ih1 ih2 | mul _ _ ih1 ih2 => simp only [height, nesting, nestings]; omega
  | fromRefTime _ h | fromProofSize _ h =>
    have := height_reads1 h
    rw [height_intoChromatic]
    simp only [nesting, nestings]; omega
  | fromParts _ h1 h2 =>
    have k1 := height_reads1 h1
    have k2 := height_reads1 h2
    refine Nat.le_trans (height_spliceAdd _ _) ?_
    rw [height_intoChromatic, height_intoChromatic]
    simp only [nesting, nestings]; omega
  | zero => simp only [height, nesting]; omega

/-- C115: the equation of a function is at most one higher than its expression in the source is nested. -/
theorem C115_source {e : Expr} {t : ChromaticTerm} (h : ReadsBody e t) : height t ≤ nesting e + 1 := by
  rcases h with h | ⟨_, _, s, hs, rfl⟩
  · exact height_reads2 h
  · rw [height_intoChromatic]; exact height_reads1 hs

/-! ### No stack suffices -/

theorem height_project (d : Dimension) (t : ChromaticTerm) : height (project d t) = height t := by
  induction t with
  | value => rfl
  | scalar => rfl
  | var => rfl
  | add _ _ ih1 ih2 => rw [project, height, height, ih1, ih2]
  | mul _ _ ih1 ih2 => rw [project, height, height, ih1, ih2]

/-- A function that adds `n` storage reads one after the other (none of them costs anything). -/
def deepFn (n : Nat) : GenFn := ⟨str% "deep", [], 1, 0, List.replicate n (.reads 0)⟩

theorem deepFn_ok (n : Nat) : (deepFn n).Ok .parts := by
  refine ⟨Gen.name_of (x := str% "deep") (by decide), by simp [deepFn], by simp [deepFn], by simp [deepFn], ?_, fun h => absurd rfl h⟩
  intro s hs
  obtain rfl := List.eq_of_mem_replicate hs
  exact ⟨by simp [Summand.comps], by simp [Summand.nums]⟩

theorem deepFn_term (n : Nat) (x : Str) : n < height (Gen.bodyT .parts (deepFn n)) ∧ (Occurs x (Gen.bodyT .parts (deepFn n)) → x = str% "READ") := by
  have key : ∀ (n : Nat) (t : ChromaticTerm), (Occurs x t → x = str% "READ") →
      n + height t ≤ height ((List.replicate n (Summand.reads 0)).foldl (fun t s => .add t (Gen.summandT .parts s)) t) ∧
      (Occurs x ((List.replicate n (Summand.reads 0)).foldl (fun t s => .add t (Gen.summandT .parts s)) t) → x = str% "READ") := by
    intro n
    induction n with
    | zero => intro t ht; exact ⟨by simp, by simpa using ht⟩
    | succ n ih =>
      intro t ht
      rw [List.replicate_succ, List.foldl_cons]
      obtain ⟨h1, h2⟩ := ih (.add t (Gen.summandT .parts (.reads 0))) (by
        intro h
        cases h with
        | addL h => exact ht h
        | addR h =>
          rw [Gen.summandT] at h
          cases h with
          | mulL h => cases h
          | mulR h => cases h; rfl)
      refine ⟨Nat.le_trans ?_ h1, h2⟩
      rw [height]
      omega
  obtain ⟨h1, h2⟩ := key n (Gen.weightT .parts 1 0) (by intro h; cases h)
  exact ⟨Nat.lt_of_lt_of_le (Nat.lt_succ_self n) h1, h2⟩

/-- The length of tokens on lines of their own. -/
def spelledLength (ts : List RTree) : Nat := ((toksOf ts).flatMap fun t => '\n' :: spell t).length

theorem spelledLength_append (a c : List RTree) : spelledLength (a ++ c) = spelledLength a + spelledLength c := by
  simp only [spelledLength, toksOf_append', List.flatMap_append, List.length_append]

theorem spelledLength_cons (t u : RTree) (c : List RTree) : spelledLength (t :: u :: c) = spelledLength [t] + spelledLength (u :: c) :=
  spelledLength_append [t] (u :: c)

theorem spelledLength_group (d : Delim) (ts : List RTree) : spelledLength [.group d ts] = spelledLength ts + 4 := by
  simp only [spelledLength, toksOf, toksOfTree, List.append_nil, List.flatMap_cons, List.flatMap_append, List.length_append, List.flatMap_nil, List.length_cons,
    spell]
  cases d <;> simp [openText, closeText] <;> omega

theorem deepFn_length (n : Nat) : (plainText .parts [deepFn n]).length = 60 * n + 93 := by
  have hb : spelledLength (bodyTrees .parts dbName (deepFn n)) = 60 * n + 31 := by
    rw [bodyTrees, spelledLength_append]
    have h0 : spelledLength (weightTrees .parts (deepFn n).time (deepFn n).proof) = 31 := by
      show spelledLength (weightTrees .parts 1 0) = 31
      decide
    rw [h0, Nat.add_comm]
    congr 1
    clear h0
    show spelledLength ((List.replicate n (Summand.reads 0)).map _).flatten = _
    induction n with
    | zero => rfl
    | succ n ih =>
      rw [List.replicate_succ, List.map_cons, List.flatten_cons, spelledLength_append, ih]
      have h1 : spelledLength (callTrees (str% "saturating_add") (summandTrees .parts dbName (.reads 0))) = 60 := by decide
      rw [h1]
      omega
  have hl : (plainText .parts [deepFn n]).length = spelledLength (plainTrees .parts [deepFn n]) + 1 := by
    simp [plainText, spellAll, spelledLength]
  rw [hl, plainTrees, spelledLength_cons, spelledLength_cons, spelledLength_cons, spelledLength_cons, spelledLength_group]
  have hf : spelledLength (plainFns .parts [deepFn n]) = 60 * n + 31 + 26 := by
    have e : plainFns .parts [deepFn n] = id' (str% "fn") :: id' (str% "deep") :: RTree.group .paren [] :: sy .arrow :: id' (str% "Weight") ::
        [.group .brace (bodyTrees .parts dbName (deepFn n))] := by
      simp [plainFns, plainFn, deepFn]
    rw [e, spelledLength_cons, spelledLength_cons, spelledLength_cons, spelledLength_cons, spelledLength_cons, spelledLength_group .brace, hb]
    have k1 : spelledLength [id' (str% "fn")] = 3 := by decide
    have k2 : spelledLength [id' (str% "deep")] = 5 := by decide
    have k3 : spelledLength [RTree.group .paren []] = 4 := by decide
    have k4 : spelledLength [sy .arrow] = 3 := by decide
    have k5 : spelledLength [id' (str% "Weight")] = 7 := by decide
    omega
  rw [hf]
  have k1 : spelledLength [id' (str% "impl")] = 5 := by decide
  have k2 : spelledLength [id' (str% "WeightInfo")] = 11 := by decide
  have k3 : spelledLength [id' (str% "for")] = 4 := by decide
  omega

/-- C115: no stack is large enough: for every number there is a file, about 60 times as long, with one function whose equation is so high.  The file is read, its
function is compared with itself, and each evaluation nests so deep. -/
theorem C115_no_limit (n : Nat) (cc : CharClass) (pallet : Str) :
    ∃ s x, s.length ≤ 60 * n + 93 ∧ parseContent rustSyn cc pallet s = .ok [x] ∧ n < height x.term ∧
      ∀ (ho : HashOrder) (params : CompareParams), params.unit = .time →
        (∃ r, compareExtrinsics .release ho (some (inDim .time x)) (some (inDim .time x)) params = .ok r) ∧
        ∀ sc v k d, NumScope sc → Evals .release sc (inDim .time x).term v k d → n < d := by
  have hok : ∀ f ∈ [deepFn n], f.Ok .parts := by simpa using deepFn_ok n
  obtain ⟨exts, h1, h2⟩ := Gen.file_read cc pallet (plainText_file .parts hok (by simp [deepFn])) (by simp) hok
  cases h2 with
  | cons h h' =>
    cases h'
    rename_i x
    obtain ⟨_, _, ht⟩ := h
    have hh : n < height x.term := by rw [ht]; exact (deepFn_term n []).1
    refine ⟨_, x, Nat.le_of_eq (deepFn_length n), h1, hh, fun ho params hu => ⟨?_, ?_⟩⟩
    · refine (C26_total_release ho _ _ params (.inl (by simp))).2 ?_
      have hno : ∀ y, ¬ Component (some (inDim .time x)) (some (inDim .time x)) y := by
        rintro y ⟨⟨e, he, ho⟩, hr, _⟩
        obtain rfl : e = inDim .time x := he.elim (fun h => (Option.some.inj h).symm) fun h => (Option.some.inj h).symm
        exact hr ((deepFn_term n y).2 (ht ▸ (occurs_project .time y x.term).1 ho))
      rintro (⟨l, _, hl, hc⟩ | ⟨_, y, hy, _⟩)
      · cases l with
        | nil => simp at hl
        | cons y l => exact hno y (hc y List.mem_cons_self)
      · exact hno y hy
    · intro sc v k d hs he
      rw [(C115_exact hs he).2]
      show n < height (project .time x.term)
      rw [height_project]
      exact hh

/-! ### Examples -/

/-- A scope with a number for `n`. -/
def exCostScope : SimpleScope := [(str% "n", .scalar 3)]

/-- `5 + 2 * n` has six parts (`n` counts twice) and height four; the value for `n = 3` is 11. -/
example : Evals .debug exCostScope (.add (.value 5) (.mul (.scalar 2) (.var (str% "n")))) 11 6 4 :=
  .add .value (.mul .scalar (.var rfl .scalar) ⟨rfl, fun _ => by decide⟩) ⟨rfl, fun _ => by decide⟩

example : parts (T := Nat) (.add (.value 5) (.mul (.scalar 2) (.var (str% "n")))) = 6 ∧ height (T := Nat) (.add (.value 5) (.mul (.scalar 2) (.var (str% "n")))) = 4 :=
  ⟨rfl, rfl⟩

/-- A sum that does not fit has no value in a checked build. -/
example : ¬ ∃ v n d, Evals .debug [] (.add (.value (2 ^ 128 - 1)) (.value 1)) v n d := by
  rintro ⟨v, n, d, h⟩
  cases h with
  | add hx hy hu =>
    cases hx
    cases hy
    exact absurd (hu.2 rfl) (by decide)

/-- Two components give four points. -/
example : ((extendScopedComponents idOrder (some (manyComps 2)) none .guessWorst (baseScope .time)).map List.length) = .ok 4 := by decide +kernel

/-- `a.saturating_add(b)` is nested two deep and its equation is three high. -/
example : nesting (.methodCall (.path [str% "a"]) (str% "saturating_add") [.path [str% "b"]] false) = 2 ∧
    height (T := Nat) (.add (.var (str% "a")) (.var (str% "b"))) = 3 := ⟨rfl, rfl⟩

end Swc
