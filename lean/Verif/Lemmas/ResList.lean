/-
Lemmas about running a fallible function over a list (`for` loops with `?`, `collect::<Result<_, _>>()`).
-/
import Mathlib.Data.List.Forall2
import Verif.Model.Basic

namespace Swc

variable {α β : Type}

theorem mapM_nil (f : α → Res β) : ([] : List α).mapM f = .ok [] := rfl

theorem mapM_cons (f : α → Res β) (a : α) (l : List α) :
    (a :: l).mapM f = (do let x ← f a; let r ← l.mapM f; Res.ok (x :: r)) := by
  rw [List.mapM_cons]; rfl

theorem mapM_ok_iff {f : α → Res β} {l : List α} {r : List β} :
    l.mapM f = .ok r ↔ List.Forall₂ (fun a x => f a = .ok x) l r := by
  induction l generalizing r with
  | nil =>
    rw [mapM_nil]
    constructor
    · intro h; injection h with h; subst h; exact .nil
    · intro h; cases h; rfl
  | cons a l ih =>
    rw [mapM_cons]
    constructor
    · intro h
      cases hf : f a with
      | ok x =>
        rw [hf] at h
        simp only [Res.bind_ok] at h
        cases hl : l.mapM f with
        | ok r' =>
          rw [hl] at h
          simp only [Res.bind_ok] at h
          injection h with h
          subst h
          exact .cons hf (ih.1 hl)
        | err m => rw [hl] at h; simp at h
        | panic => rw [hl] at h; simp at h
        | diverge => rw [hl] at h; simp at h
      | err m => rw [hf] at h; simp at h
      | panic => rw [hf] at h; simp at h
      | diverge => rw [hf] at h; simp at h
    · intro h
      cases h with
      | cons h1 h2 => rw [h1, ih.2 h2]; rfl

theorem mapM_ok_map {f : α → Res β} {g : α → β} {l : List α} (h : ∀ a ∈ l, f a = .ok (g a)) : l.mapM f = .ok (l.map g) := by
  induction l with
  | nil => rfl
  | cons a l ih =>
    rw [mapM_cons, h a List.mem_cons_self, ih fun x hx => h x (List.mem_cons_of_mem _ hx)]
    rfl

theorem mapM_err {f : α → Res β} {l : List α} {m : Str} (h : l.mapM f = .err m) : ∃ a ∈ l, f a = .err m := by
  induction l with
  | nil => rw [mapM_nil] at h; cases h
  | cons a l ih =>
    rw [mapM_cons] at h
    cases hf : f a with
    | ok x =>
      rw [hf] at h
      simp only [Res.bind_ok] at h
      cases hl : l.mapM f with
      | ok r => rw [hl] at h; simp at h
      | err m' =>
        rw [hl] at h
        simp only [Res.bind_err] at h
        injection h with h
        subst h
        obtain ⟨y, hy, e⟩ := ih hl
        exact ⟨y, List.mem_cons_of_mem _ hy, e⟩
      | panic => rw [hl] at h; simp at h
      | diverge => rw [hl] at h; simp at h
    | err m' => rw [hf] at h; simp only [Res.bind_err] at h; injection h with h; exact ⟨a, List.mem_cons_self, by rw [hf, h]⟩
    | panic => rw [hf] at h; simp at h
    | diverge => rw [hf] at h; simp at h

theorem mapM_panic {f : α → Res β} {l : List α} (h : l.mapM f = .panic) : ∃ a ∈ l, f a = .panic := by
  induction l with
  | nil => rw [mapM_nil] at h; cases h
  | cons a l ih =>
    rw [mapM_cons] at h
    cases hf : f a with
    | ok x =>
      rw [hf] at h
      simp only [Res.bind_ok] at h
      cases hl : l.mapM f with
      | ok r => rw [hl] at h; simp at h
      | err m' => rw [hl] at h; simp at h
      | panic =>
        obtain ⟨y, hy, e⟩ := ih hl
        exact ⟨y, List.mem_cons_of_mem _ hy, e⟩
      | diverge => rw [hl] at h; simp at h
    | err m' => rw [hf] at h; simp at h
    | panic => exact ⟨a, List.mem_cons_self, hf⟩
    | diverge => rw [hf] at h; simp at h

theorem mapM_diverge {f : α → Res β} {l : List α} (h : l.mapM f = .diverge) : ∃ a ∈ l, f a = .diverge := by
  induction l with
  | nil => rw [mapM_nil] at h; cases h
  | cons a l ih =>
    rw [mapM_cons] at h
    cases hf : f a with
    | ok x =>
      rw [hf] at h
      simp only [Res.bind_ok] at h
      cases hl : l.mapM f with
      | ok r => rw [hl] at h; simp at h
      | err m' => rw [hl] at h; simp at h
      | diverge =>
        obtain ⟨y, hy, e⟩ := ih hl
        exact ⟨y, List.mem_cons_of_mem _ hy, e⟩
      | panic => rw [hl] at h; simp at h
    | err m' => rw [hf] at h; simp at h
    | diverge => exact ⟨a, List.mem_cons_self, hf⟩
    | panic => rw [hf] at h; simp at h

theorem mapM_congr {f g : α → Res β} {l : List α} (h : ∀ a ∈ l, f a = g a) : l.mapM f = l.mapM g := by
  induction l with
  | nil => rfl
  | cons a l ih =>
    rw [mapM_cons, mapM_cons, h a List.mem_cons_self, ih fun x hx => h x (List.mem_cons_of_mem _ hx)]

/-- If all elements succeed, the loop succeeds. -/
theorem mapM_ok_of_forall {f : α → Res β} {l : List α} (h : ∀ a ∈ l, ∃ x, f a = .ok x) : ∃ r, l.mapM f = .ok r := by
  cases hl : l.mapM f with
  | ok r => exact ⟨r, rfl⟩
  | err m => obtain ⟨a, ha, e⟩ := mapM_err hl; obtain ⟨x, hx⟩ := h a ha; rw [hx] at e; cases e
  | panic => obtain ⟨a, ha, e⟩ := mapM_panic hl; obtain ⟨x, hx⟩ := h a ha; rw [hx] at e; cases e
  | diverge => obtain ⟨a, ha, e⟩ := mapM_diverge hl; obtain ⟨x, hx⟩ := h a ha; rw [hx] at e; cases e

theorem forall₂_mem_left {R : α → β → Prop} {l : List α} {r : List β} (h : List.Forall₂ R l r) {a : α} (ha : a ∈ l) :
    ∃ x ∈ r, R a x := by
  induction h with
  | nil => cases ha
  | cons h1 _ ih =>
    rcases List.mem_cons.1 ha with rfl | ha
    · exact ⟨_, List.mem_cons_self, h1⟩
    · obtain ⟨x, hx, h⟩ := ih ha; exact ⟨x, List.mem_cons_of_mem _ hx, h⟩

theorem forall₂_mem_right {R : α → β → Prop} {l : List α} {r : List β} (h : List.Forall₂ R l r) {x : β} (hx : x ∈ r) :
    ∃ a ∈ l, R a x := by
  induction h with
  | nil => cases hx
  | cons h1 _ ih =>
    rcases List.mem_cons.1 hx with rfl | hx
    · exact ⟨_, List.mem_cons_self, h1⟩
    · obtain ⟨a, ha, h⟩ := ih hx; exact ⟨a, List.mem_cons_of_mem _ ha, h⟩

/-- A loop that succeeds visits every element successfully. -/
theorem mapM_ok_mem {f : α → Res β} {l : List α} {r : List β} (h : l.mapM f = .ok r) {a : α} (ha : a ∈ l) :
    ∃ x ∈ r, f a = .ok x := forall₂_mem_left (mapM_ok_iff.1 h) ha

theorem mapM_ok_mem' {f : α → Res β} {l : List α} {r : List β} (h : l.mapM f = .ok r) {x : β} (hx : x ∈ r) :
    ∃ a ∈ l, f a = .ok x := forall₂_mem_right (mapM_ok_iff.1 h) hx

end Swc
