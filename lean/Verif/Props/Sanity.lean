/-
C15: the sanity check (`core/src/lib.rs:750-764`, `core/src/term.rs:312-348`).
-/
import Verif.Model.Compare
import Verif.Lemmas.Eval

namespace Swc

open Spec

namespace Spec

/-- Some product inside `t` multiplies the variable `x` directly with the scalar literal `n`. -/
def Factor {T : Type} (x : Str) (n : Nat) (t : Term T) : Prop :=
  Sub (.mul (.scalar n) (.var x)) t ∨ Sub (.mul (.var x) (.scalar n)) t

end Spec

/-- All sub-equations, in visiting order. -/
def nodes {T : Type} : Term T → List (Term T)
  | .add l r => .add l r :: nodes l ++ nodes r
  | .mul l r => .mul l r :: nodes l ++ nodes r
  | t => [t]

theorem mem_nodes {T : Type} {s t : Term T} : s ∈ nodes t ↔ Sub s t := by
  induction t with
  | value x => simp only [nodes, List.mem_singleton]; exact ⟨fun h => h ▸ .refl, fun h => by cases h; rfl⟩
  | scalar x => simp only [nodes, List.mem_singleton]; exact ⟨fun h => h ▸ .refl, fun h => by cases h; rfl⟩
  | var x => simp only [nodes, List.mem_singleton]; exact ⟨fun h => h ▸ .refl, fun h => by cases h; rfl⟩
  | add l r ihl ihr =>
    simp only [nodes, List.cons_append, List.mem_cons, List.mem_append, ihl, ihr]
    constructor
    · rintro (rfl | h | h)
      · exact .refl
      · exact .addL h
      · exact .addR h
    · intro h
      cases h with
      | refl => exact .inl rfl
      | addL h => exact .inr (.inl h)
      | addR h => exact .inr (.inr h)
  | mul l r ihl ihr =>
    simp only [nodes, List.cons_append, List.mem_cons, List.mem_append, ihl, ihr]
    constructor
    · rintro (rfl | h | h)
      · exact .refl
      · exact .mulL h
      · exact .mulR h
    · intro h
      cases h with
      | refl => exact .inl rfl
      | mulL h => exact .inr (.inl h)
      | mulR h => exact .inr (.inr h)

theorem visit_ok {T R : Type} (f : Term T → R) (t : Term T) : Term.visit (fun s => Res.ok (f s)) t = .ok ((nodes t).map f) := by
  induction t with
  | value x => simp [Term.visit, nodes]
  | scalar x => simp [Term.visit, nodes]
  | var x => simp [Term.visit, nodes]
  | add l r ihl ihr => simp [Term.visit, nodes, ihl, ihr]
  | mul l r ihl ihr => simp [Term.visit, nodes, ihl, ihr]

theorem factorAt_eq_some {T : Type} {x : Str} {s : Term T} {n : Nat} :
    Term.factorAt x s = some n ↔ s = .mul (.scalar n) (.var x) ∨ s = .mul (.var x) (.scalar n) := by
  cases s with
  | mul l r =>
    simp only [Term.factorAt, Term.mul.injEq]
    cases l <;> cases r <;> simp [Term.asVar, Term.asScalar, and_comm]
  | _ => simp [Term.factorAt]

theorem mem_factors {T : Type} {x : Str} {t : Term T} {n : Nat} :
    n ∈ ((nodes t).map (Term.factorAt x)).filterMap id ↔ Factor x n t := by
  simp only [List.mem_filterMap, List.mem_map, id_eq, exists_eq_right, mem_nodes, factorAt_eq_some, Factor]
  constructor
  · rintro ⟨s, hs, rfl | rfl⟩
    · exact .inl hs
    · exact .inr hs
  · rintro (h | h)
    · exact ⟨_, h, .inl rfl⟩
    · exact ⟨_, h, .inr rfl⟩

theorem foldl_max_ge (l : List Nat) : ∀ a, a ≤ l.foldl max a ∧ ∀ x ∈ l, x ≤ l.foldl max a := by
  induction l with
  | nil => intro a; simp
  | cons y l ih =>
    intro a
    obtain ⟨h1, h2⟩ := ih (max a y)
    simp only [List.foldl_cons, List.mem_cons]
    refine ⟨by omega, ?_⟩
    rintro x (rfl | hx)
    · omega
    · exact h2 x hx

theorem foldl_max_mem (l : List Nat) : ∀ a, l.foldl max a = a ∨ l.foldl max a ∈ l := by
  induction l with
  | nil => intro a; simp
  | cons y l ih =>
    intro a
    simp only [List.foldl_cons, List.mem_cons]
    rcases ih (max a y) with h | h
    · rcases Nat.le_total a y with h' | h'
      · right; left; omega
      · left; omega
    · right; right; exact h

/-- `find_largest_factor` never panics and returns the largest literal factor of the variable. -/
theorem findLargestFactor_spec {T : Type} (x : Str) (t : Term T) :
    ∃ o, Term.findLargestFactor x t = .ok o ∧
      (o = none → ∀ n, ¬ Factor x n t) ∧ (∀ m, o = some m → Factor x m t ∧ ∀ n, Factor x n t → n ≤ m) := by
  unfold Term.findLargestFactor
  rw [visit_ok]
  refine ⟨_, rfl, ?_, ?_⟩
  · intro h n hn
    rw [← mem_factors] at hn
    cases hl : ((nodes t).map (Term.factorAt x)).filterMap id with
    | nil => rw [hl] at hn; cases hn
    | cons a l => rw [hl] at h; simp [Term.maxOpt] at h
  · intro m h
    cases hl : ((nodes t).map (Term.factorAt x)).filterMap id with
    | nil => rw [hl] at h; simp [Term.maxOpt] at h
    | cons a l =>
      rw [hl] at h
      simp only [Term.maxOpt, Option.some.injEq] at h
      obtain ⟨h1, h2⟩ := foldl_max_ge l a
      have hmem : ∀ n, n ∈ a :: l ↔ Factor x n t := by intro n; rw [← hl]; exact mem_factors
      constructor
      · rw [← hmem, ← h]
        rcases foldl_max_mem l a with h3 | h3
        · rw [h3]; exact List.mem_cons_self
        · exact List.mem_cons_of_mem _ h3
      · intro n hn
        rw [← hmem] at hn
        rw [← h]
        rcases List.mem_cons.1 hn with rfl | hn
        · exact h1
        · exact h2 n hn

/-- C15: the check fails exactly if there is a literal READ or WRITE factor above 1000, and otherwise succeeds. -/
theorem C15_flags_iff (t : SimpleTerm) :
    ((∃ m, sanityCheckTerm t = .err m) ↔ ∃ n, 1000 < n ∧ (Factor (str% "READ") n t ∨ Factor (str% "WRITE") n t)) ∧
    ((¬ ∃ m, sanityCheckTerm t = .err m) → sanityCheckTerm t = .ok ()) := by
  obtain ⟨r, er, r1, r2⟩ := findLargestFactor_spec readVar t
  obtain ⟨w, ew, w1, w2⟩ := findLargestFactor_spec writeVar t
  have hr : ∀ n, Factor (str% "READ") n t → n ≤ r.getD 0 := by
    intro n hn
    cases r with
    | none => exact absurd hn (r1 rfl n)
    | some m => exact (r2 m rfl).2 n hn
  have hw : ∀ n, Factor (str% "WRITE") n t → n ≤ w.getD 0 := by
    intro n hn
    cases w with
    | none => exact absurd hn (w1 rfl n)
    | some m => exact (w2 m rfl).2 n hn
  have hr' : 1000 < r.getD 0 → Factor (str% "READ") (r.getD 0) t := by
    cases r with
    | none => simp
    | some m => intro _; exact (r2 m rfl).1
  have hw' : 1000 < w.getD 0 → Factor (str% "WRITE") (w.getD 0) t := by
    cases w with
    | none => simp
    | some m => intro _; exact (w2 m rfl).1
  have e : sanityCheckTerm t = if max (r.getD 0) (w.getD 0) > 1000 then
      if r.getD 0 > w.getD 0 then .err (str% "Call has " ++ natToStr (r.getD 0) ++ str% " READs")
      else .err (str% "Call has " ++ natToStr (w.getD 0) ++ str% " WRITEs") else .ok () := by
    simp only [sanityCheckTerm, er, ew, Res.bind_ok]
  constructor
  · constructor
    · rintro ⟨m, hm⟩
      rw [e] at hm
      split at hm
      · rename_i h
        rcases Nat.lt_or_ge 1000 (r.getD 0) with h1 | h1
        · exact ⟨_, h1, .inl (hr' h1)⟩
        · have h2 : 1000 < w.getD 0 := by omega
          exact ⟨_, h2, .inr (hw' h2)⟩
      · cases hm
    · rintro ⟨n, hn, h | h⟩
      · have := hr n h
        rw [e, if_pos (by omega)]
        split <;> exact ⟨_, rfl⟩
      · have := hw n h
        rw [e, if_pos (by omega)]
        split <;> exact ⟨_, rfl⟩
  · intro h
    rw [e] at h ⊢
    split
    · rename_i h1
      rw [if_pos h1] at h
      split at h <;> exact absurd ⟨_, rfl⟩ h
    · rfl

/-- C15: the message reports the largest factor and its kind (READ only if strictly larger than every WRITE factor). -/
theorem C15_message (t : SimpleTerm) (m : Str) (h : sanityCheckTerm t = .err m) :
    ∃ n, (∀ k, Factor (str% "READ") k t ∨ Factor (str% "WRITE") k t → k ≤ n) ∧
      ((m = str% "Call has " ++ natToStr n ++ str% " READs" ∧ Factor (str% "READ") n t ∧ ∀ k, Factor (str% "WRITE") k t → k < n) ∨
       (m = str% "Call has " ++ natToStr n ++ str% " WRITEs" ∧ Factor (str% "WRITE") n t)) := by
  obtain ⟨r, er, r1, r2⟩ := findLargestFactor_spec readVar t
  obtain ⟨w, ew, w1, w2⟩ := findLargestFactor_spec writeVar t
  have hr : ∀ n, Factor (str% "READ") n t → n ≤ r.getD 0 := by
    intro n hn
    cases r with
    | none => exact absurd hn (r1 rfl n)
    | some m => exact (r2 m rfl).2 n hn
  have hw : ∀ n, Factor (str% "WRITE") n t → n ≤ w.getD 0 := by
    intro n hn
    cases w with
    | none => exact absurd hn (w1 rfl n)
    | some m => exact (w2 m rfl).2 n hn
  simp only [sanityCheckTerm, er, ew, Res.bind_ok] at h
  split at h
  · split at h
    · injection h with h
      refine ⟨r.getD 0, ?_, .inl ⟨h.symm, ?_, ?_⟩⟩
      · rintro k (hk | hk)
        · exact hr k hk
        · have := hw k hk; omega
      · cases r with
        | none => simp at *
        | some m => exact (r2 m rfl).1
      · intro k hk
        have := hw k hk
        omega
    · injection h with h
      refine ⟨w.getD 0, ?_, .inr ⟨h.symm, ?_⟩⟩
      · rintro k (hk | hk)
        · have := hr k hk; omega
        · exact hw k hk
      · cases w with
        | none => simp at *; omega
        | some m => exact (w2 m rfl).1
  · cases h

example : sanityCheckTerm (.add (.value 5) (.mul (.var readVar) (.scalar 1001))) = .err (str% "Call has 1001 READs") := by decide

/-- C15 (limit of the check): a factor that is a weight value, not a scalar literal, is never flagged, however large. -/
theorem C15_value_factor_not_flagged (n : Nat) : sanityCheckTerm (.mul (.value n) (.var readVar)) = .ok () := by
  refine (C15_flags_iff _).2 ?_
  rw [(C15_flags_iff _).1]
  rintro ⟨k, _, (h | h) | (h | h)⟩ <;> · rcases h with _ | _ | _ | ⟨⟨⟩⟩ | ⟨⟨⟩⟩

end Swc
