/-
Which comparison has poisoned the cache of the web server.
-/
import Verif.Props.Web
import Verif.Spec.Site

namespace Swc

open Spec Prog

variable {W : World} {srv : Server}

/-- What the log says about a poisoned cache: it is poisoned exactly if a comparison has panicked; that was the last comparison, and its request died of it. -/
structure Poison (s : Shared W.State) : Prop where
  some_ : s.poisoned = true → ∃ pre id a ho st fi t post, s.log = pre ++ .computed id a ho st fi .panic t :: .died id :: post
  none_ : s.poisoned = false → ∀ id a ho st fi t, Entry.computed id a ho st fi .panic t ∉ s.log
  last : ∀ pre id a ho st fi t post, s.log = pre ++ .computed id a ho st fi .panic t :: post →
    (∃ post', post = .died id :: post') ∧ ∀ id' a' ho' st' fi' r' t', Entry.computed id' a' ho' st' fi' r' t' ∉ post

theorem poison_same {s s' : Shared W.State} (h : Poison s) (hp : s'.poisoned = s.poisoned) (hl : s'.log = s.log) : Poison s' := by
  obtain ⟨h1, h2, h3⟩ := h
  constructor
  · rw [hp, hl]; exact h1
  · rw [hp, hl]; exact h2
  · rw [hl]; exact h3

/-- Splitting a list that has grown at the end. -/
theorem append_cons_split {α : Type} {l es pre post : List α} {x : α} (h : l ++ es = pre ++ x :: post) :
    (∃ mid, l = pre ++ x :: mid ∧ post = mid ++ es) ∨ ∃ mid, pre = l ++ mid ∧ es = mid ++ x :: post := by
  rcases List.append_eq_append_iff.1 h with ⟨mid, h1, h2⟩ | ⟨mid, h1, h2⟩
  · exact .inr ⟨mid, h1, h2⟩
  · cases mid with
    | nil => exact .inr ⟨[], by simpa using h1.symm, by simpa using h2.symm⟩
    | cons y mid =>
      obtain ⟨rfl, h3⟩ := List.cons.inj h2
      exact .inl ⟨mid, h1, h3⟩

theorem poison_plain {s s' : Shared W.State} {e : Entry W.State} (h : Poison s) (hp : s'.poisoned = s.poisoned) (hl : s'.log = s.log ++ [e])
    (he : e.plain = true) : Poison s' := by
  obtain ⟨h1, h2, h3⟩ := h
  constructor
  · rw [hp, hl]
    intro hq
    obtain ⟨pre, id, a, ho, st, fi, t, post, h⟩ := h1 hq
    exact ⟨pre, id, a, ho, st, fi, t, post ++ [e], by rw [h]; simp⟩
  · rw [hp, hl]
    intro hq id a ho st fi t hm
    exact h2 hq _ _ _ _ _ _ ((mem_plain he).1 hm)
  · rw [hl]
    intro pre id a ho st fi t post h
    rcases append_cons_split h with ⟨mid, g1, g2⟩ | ⟨mid, g1, g2⟩
    · obtain ⟨⟨post', g3⟩, g4⟩ := h3 _ _ _ _ _ _ _ _ g1
      refine ⟨⟨post' ++ [e], by rw [g2, g3]; rfl⟩, fun id' a' ho' st' fi' r' t' hm => ?_⟩
      rw [g2] at hm
      exact g4 _ _ _ _ _ _ _ ((mem_plain he).1 hm)
    · cases mid with
      | nil =>
        obtain ⟨rfl, -⟩ := List.cons.inj g2
        cases he
      | cons y mid => cases mid <;> cases g2

theorem poison_more {s s' : Shared W.State} {id : Nat} {a : CompareArgs} {ho : HashOrder} {st fi : W.State} {r : Res (List ExtrinsicDiff)} {t : Nat}
    {e : Entry W.State} (h : Poison s) (hf : s.poisoned = false) (hp : s'.poisoned = s.poisoned)
    (hl : s'.log = s.log ++ [.computed id a ho st fi r t, e]) (hr : r ≠ .panic) (he : e.plain = true) : Poison s' := by
  have hno : ∀ id a ho st fi t, Entry.computed id a ho st fi .panic t ∉ s'.log := by
    rw [hl]
    intro id' a' ho' st' fi' t' hm
    rcases List.mem_append.1 hm with hm | hm
    · exact h.none_ hf _ _ _ _ _ _ hm
    · rcases List.mem_cons.1 hm with hm | hm
      · cases hm; exact hr rfl
      · rw [List.mem_singleton] at hm
        subst hm; cases he
  refine ⟨fun hq => ?_, fun _ => hno, fun pre id a ho st fi t post h => ?_⟩
  · rw [hp, hf] at hq; cases hq
  · exact absurd (h ▸ List.mem_append_right _ List.mem_cons_self) (hno id a ho st fi t)

theorem poison_crash {s s' : Shared W.State} {id : Nat} {a : CompareArgs} {ho : HashOrder} {st fi : W.State} {t : Nat}
    (h : Poison s) (hf : s.poisoned = false) (hp : s'.poisoned = true) (hl : s'.log = s.log ++ [.computed id a ho st fi .panic t, .died id]) : Poison s' := by
  refine ⟨fun _ => ⟨s.log, id, a, ho, st, fi, t, [], hl⟩, fun hq => ?_, fun pre id' a' ho' st' fi' t' post g => ?_⟩
  · rw [hp] at hq; cases hq
  · rw [hl] at g
    rcases append_cons_split g with ⟨mid, g1, g2⟩ | ⟨mid, g1, g2⟩
    · exact absurd (g1 ▸ List.mem_append_right _ List.mem_cons_self) (h.none_ hf id' a' ho' st' fi' t')
    · cases mid with
      | nil =>
        obtain ⟨g3, g4⟩ := List.cons.inj g2
        cases g3
        subst g4
        exact ⟨⟨[], rfl⟩, fun _ _ _ _ _ _ _ hm => by simp at hm⟩
      | cons y mid =>
        cases mid with
        | nil => obtain ⟨-, g4⟩ := List.cons.inj g2; cases g4
        | cons z mid => obtain ⟨-, g4⟩ := List.cons.inj g2; cases mid <;> cases g4

theorem poison {c : Config W.State} (h : Reachable W srv c) : Poison c.sh := by
  induction h with
  | init repo clock =>
    refine ⟨fun h => (nomatch h), fun _ _ _ _ _ _ _ h => (nomatch h), fun pre id a ho st fi t post h => ?_⟩
    cases pre <;> cases h
  | @step c c' h hs ih =>
    cases hs with
    | arrive r => exact ih
    | tick n => exact poison_same ih rfl rfl
    | thread i h1 =>
      obtain ⟨pc, pc', s', hi, ha, rfl⟩ := h1
      have free : mutexBy pc = 1 → c.sh.poisoned = false := by
        intro h1
        cases hp : c.sh.poisoned with
        | false => rfl
        | true =>
          have hm := (locksOk_reachable h).mutex
          have hle := le_total mutexBy hi
          rw [poisoned_free h hp, Bool.toNat_false] at hm
          omega
      show Poison s'
      cases ha with
      | scanDrop => split <;> exact poison_same ih rfl rfl
      | scanEnd hi => split <;> exact poison_same ih rfl rfl
      | unknown h => exact poison_plain ih rfl rfl rfl
      | lockPoisoned h hp => exact poison_plain ih rfl rfl rfl
      | hit h hf => exact poison_plain ih rfl rfl rfl
      | branchOk => exact poison_plain ih rfl rfl rfl
      | branchErr => exact poison_plain ih rfl rfl rfl
      | branchPanic => exact poison_plain ih rfl rfl rfl
      | storeOk => exact poison_more ih (free rfl) rfl rfl (fun h => nomatch h) rfl
      | storeErr => exact poison_more ih (free rfl) rfl rfl (fun h => nomatch h) rfl
      | storePanic => exact poison_crash ih (free rfl) rfl rfl
      | _ => exact poison_same ih rfl rfl

theorem log_step {id : Nat} {pc pc' : Pc W.State} {s s' : Shared W.State} (ha : Act1 W srv id pc s pc' s') : ∃ es, s'.log = s.log ++ es := by
  cases ha with
  | scanDrop => split <;> exact ⟨[], (List.append_nil _).symm⟩
  | scanEnd hi => split <;> exact ⟨[], (List.append_nil _).symm⟩
  | unknown h => exact ⟨_, rfl⟩
  | lockPoisoned h hp => exact ⟨_, rfl⟩
  | hit h hf => exact ⟨_, rfl⟩
  | branchOk => exact ⟨_, rfl⟩
  | branchErr => exact ⟨_, rfl⟩
  | branchPanic => exact ⟨_, rfl⟩
  | storeOk => exact ⟨_, rfl⟩
  | storeErr => exact ⟨_, rfl⟩
  | storePanic => exact ⟨_, rfl⟩
  | _ => exact ⟨[], (List.append_nil _).symm⟩

theorem log_later {c c' : Config W.State} (h : Later W srv c c') : ∃ es, c'.sh.log = c.sh.log ++ es := by
  induction h with
  | refl => exact ⟨[], (List.append_nil _).symm⟩
  | @step c1 c2 h hs ih =>
    obtain ⟨es, ih⟩ := ih
    cases hs with
    | arrive r => exact ⟨es, ih⟩
    | tick n => exact ⟨es, ih⟩
    | thread i h1 =>
      obtain ⟨pc, pc', s', hi, ha, rfl⟩ := h1
      obtain ⟨es', h'⟩ := log_step ha
      exact ⟨es ++ es', by show s'.log = _; rw [h', ih, List.append_assoc]⟩

theorem diedOf_append {σ : Type} {log es : List (Entry σ)} {id : Nat} {a : CompareArgs} (h : DiedOf log id a) : DiedOf (log ++ es) id a := by
  obtain ⟨before, id', a', ho, st, fi, t, between, after, h1, h2⟩ := h
  exact ⟨before, id', a', ho, st, fi, t, between, after ++ es, by rw [h1]; simp, h2⟩

theorem diedOf_poisoned {c : Config W.State} (h : Reachable W srv c) (hp : c.sh.poisoned = true) {id : Nat} (hid : Entry.died id ∉ c.sh.log)
    (a : CompareArgs) : DiedOf (c.sh.log ++ [.died id]) id a := by
  obtain ⟨pre, id', a', ho, st, fi, t, post, h1⟩ := (poison h).some_ hp
  refine ⟨pre, id', a', ho, st, fi, t, .died id' :: post, [], by rw [h1]; simp, .inr ⟨fun e => ?_, List.mem_cons_self⟩⟩
  subst e
  exact hid (by rw [h1]; simp)

end Swc
