/-
C54–C56: the web server under all interleavings of any number of requests.
-/
import Verif.Spec.Web
import Verif.Lemmas.WebInv
import Verif.Props.Git

namespace Swc

open Spec Prog

variable {W : World} {srv : Server}

/-! ### What a comparison computes -/

theorem doCompare_alone {ho : HashOrder} {a : CompareArgs} {st fi : W.State} {r : Res (List ExtrinsicDiff)}
    (hk : srv.repos a.repo ≠ none) (h : (r, fi) = (doCompare srv ho a).run W st) : Alone W srv ho a st r fi := by
  obtain ⟨path, hp⟩ := Option.ne_none_iff_exists'.1 hk
  refine ⟨path, _, _, hp, rfl, rfl, ?_⟩
  have hpull : (decide (a.gitPull ≠ some false)) = a.gitPull.getD true := by
    rcases a.gitPull with _ | b
    · rfl
    · cases b <;> rfl
  unfold doCompare at h
  rw [hp] at h
  dsimp only at h
  have href := refines_compareCommits (W := W) srv.build ho srv.rx srv.env path (trim a.old) (trim a.new) (webParams a) (webFilter a)
    (trim a.pathPattern) 6000 ⟨st, []⟩
  rw [run_bind, href] at h
  rw [hpull]
  show r = finish (webFilter a) (compareCommits srv.build ho srv.rx srv.env path (trim a.old) (trim a.new) (webParams a) (webFilter a)
    (trim a.pathPattern) 6000 ⟨st, []⟩).1 ∧ fi = (compareCommits srv.build ho srv.rx srv.env path (trim a.old) (trim a.new) (webParams a) (webFilter a)
    (trim a.pathPattern) 6000 ⟨st, []⟩).2.state
  generalize compareCommits srv.build ho srv.rx srv.env path (trim a.old) (trim a.new) (webParams a) (webFilter a) (trim a.pathPattern) 6000
    (⟨st, []⟩ : Run W) = out at h
  obtain ⟨r0, s0⟩ := out
  cases r0 <;> · dsimp only at h ⊢; cases h; exact ⟨rfl, rfl⟩

/-! ### C54: the cache -/

theorem isFresh_iff {t n : Nat} (h : t ≤ n) : isFresh t n = true ↔ n < t + maxAge := by
  unfold isFresh maxAge
  rw [decide_eq_true_eq]
  omega

/-- C54: every answer marked as cached is the value of a successful comparison with identical arguments, which ended less than 600 seconds before. -/
theorem C54_cached {c : Config W.State} (h : Reachable W srv c) {pre post : List (Entry W.State)} {id : Nat} {a : CompareArgs}
    {r : Except Str (List ExtrinsicDiff)} {t : Nat} (hl : c.sh.log = pre ++ .answered id a r true t :: post) :
    ∃ v, r = .ok v ∧ ∃ id' ho st fi t', .computed id' a ho st fi (.ok v) t' ∈ pre ∧ t' ≤ t ∧ t < t' + maxAge := by
  obtain ⟨v, hr, id', ho, st, fi, t', hm, ht, hf⟩ := (inv_reachable h).shared.log.split hl
  exact ⟨v, hr, id', ho, st, fi, t', hm, ht, (isFresh_iff ht).1 hf⟩

/-- C54: every other answer is an error about an unknown repository, or the outcome of a comparison run for this very request, whose record
immediately precedes the answer. -/
theorem C54_not_cached {c : Config W.State} (h : Reachable W srv c) {pre post : List (Entry W.State)} {id : Nat} {a : CompareArgs}
    {r : Except Str (List ExtrinsicDiff)} {t : Nat} (hl : c.sh.log = pre ++ .answered id a r false t :: post) :
    (srv.repos a.repo = none ∧ ∃ m, r = .error m) ∨
      ∃ pre' ho st fi res, pre = pre' ++ [.computed id a ho st fi res t] ∧
        ((∃ v, res = .ok v ∧ r = .ok v) ∨ ∃ m, res = .err m ∧ r = .error m) :=
  (inv_reachable h).shared.log.split hl

/-- C54: errors are never served from the cache. -/
theorem C54_errors_not_cached {c : Config W.State} (h : Reachable W srv c) {id : Nat} {a : CompareArgs} {m : Str} {cached : Bool} {t : Nat}
    (hm : .answered id a (.error m) cached t ∈ c.sh.log) : cached = false := by
  obtain ⟨pre, post, hl⟩ := List.append_of_mem hm
  cases cached with
  | false => rfl
  | true =>
    obtain ⟨v, hv, -⟩ := C54_cached h hl
    cases hv

/-- C54: after a successful comparison nothing is compared again with identical arguments for 600 seconds. -/
theorem C54_not_repeated {c : Config W.State} (h : Reachable W srv c) {pre mid post : List (Entry W.State)} {a : CompareArgs}
    {id id' : Nat} {ho ho' : HashOrder} {st fi st' fi' : W.State} {v : List ExtrinsicDiff} {r : Res (List ExtrinsicDiff)} {t t' : Nat}
    (hl : c.sh.log = pre ++ .computed id a ho st fi (.ok v) t :: mid ++ .computed id' a ho' st' fi' r t' :: post) : t + maxAge ≤ t' := by
  have h0 : EntryOk W srv _ (.computed id' a ho' st' fi' r t') := (inv_reachable h).shared.log.split hl
  have h1 := h0.2.2
  have h2 := h1 id ho st fi v t (by simp)
  by_contra hc
  rcases Nat.le_total t t' with hle | hle
  · rw [(isFresh_iff hle).2 (by omega)] at h2
    cases h2
  · have : isFresh t t' = true := by
      unfold isFresh
      rw [decide_eq_true_eq, Nat.sub_eq_zero_of_le hle]
      decide
    rw [this] at h2
    cases h2

/-- C54: a request that reaches the cache less than 600 seconds after a successful comparison with identical arguments is answered from the
cache, without touching any repository. -/
theorem C54_served {c c' : Config W.State} (h : Reachable W srv c) {i : Nat} {a : CompareArgs} (hi : c.threads[i]? = some (.check a))
    {id : Nat} {ho : HashOrder} {st fi : W.State} {v : List ExtrinsicDiff} {t : Nat}
    (hm : .computed id a ho st fi (.ok v) t ∈ c.sh.log) (ht : c.sh.clock < t + maxAge) (hs : ThreadStep W srv i c c') :
    ∃ v', c'.sh.log = c.sh.log ++ [.answered i a (.ok v') true c.sh.clock] ∧ c'.sh.repo = c.sh.repo
      ∧ c'.threads[i]? = some .finished := by
  have hsh := (inv_reachable h).shared
  have hle := hsh.times _ _ _ _ _ _ _ hm
  have hf := (isFresh_iff hle).2 ht
  obtain ⟨t', v', hg, htt⟩ := hsh.fresh _ _ _ _ _ _ _ hm hf
  obtain ⟨pc, pc', s', hpc, ha, rfl⟩ := hs
  rw [hi] at hpc
  cases hpc
  have hlen : i < c.threads.length := by
    by_contra hc
    rw [List.getElem?_eq_none (by omega)] at hi
    cases hi
  cases ha with
  | hit h1 h2 => exact ⟨_, rfl, rfl, List.getElem?_set_self hlen⟩
  | @expired _ _ t'' v'' h1 h2 =>
    rw [hg] at h1
    cases h1
    rw [isFresh_mono hf htt (Nat.le_refl _)] at h2
    cases h2
  | miss h1 => rw [hg] at h1; cases h1

/-- The mutex is poisoned only while no request holds it. -/
theorem poisoned_free {c : Config W.State} (h : Reachable W srv c) (hp : c.sh.poisoned = true) : c.sh.mutex = false := by
  induction h with
  | init => cases hp
  | @step c c' h hs ih =>
    cases hs with
    | arrive r => exact ih hp
    | tick n => exact ih hp
    | thread i h1 =>
      obtain ⟨pc, pc', s', hi, ha, rfl⟩ := h1
      have hm := (locksOk_reachable h).mutex
      have hle := le_total mutexBy hi
      have key : s'.poisoned = c.sh.poisoned ∧ (s'.mutex = c.sh.mutex ∨ s'.mutex = false) ∨ s'.mutex = false ∨
          (c.sh.poisoned = false ∧ s'.poisoned = false) := by
        cases ha with
        | @scanDrop next i _ => left; split <;> exact ⟨rfl, Or.inl rfl⟩
        | @scanEnd next i _ hi => left; split <;> exact ⟨rfl, Or.inl rfl⟩
        | lock h1 h2 => exact Or.inr (Or.inr ⟨h2, h2⟩)
        | hit => exact Or.inr (Or.inl rfl)
        | storeOk => exact Or.inr (Or.inl rfl)
        | storeErr => exact Or.inr (Or.inl rfl)
        | storePanic => exact Or.inr (Or.inl rfl)
        | _ => exact Or.inl ⟨rfl, Or.inl rfl⟩
      dsimp only at hp ⊢
      rcases key with ⟨h1, h2 | h2⟩ | h2 | ⟨h1, h2⟩
      · rw [h2]; exact ih (h1 ▸ hp)
      · exact h2
      · exact h2
      · rw [h2] at hp; cases hp

/-- C54 (finding): after a comparison has panicked, no comparison is ever run or answered successfully again, and every request for a known
repository dies: the mutex of the cache stays poisoned.  `es` are the later entries of the log. -/
theorem C54_poisoned_forever {c c' : Config W.State} (h : Reachable W srv c) (hp : c.sh.poisoned = true) (hl : Later W srv c c') :
    c'.sh.poisoned = true ∧ ∃ es, c'.sh.log = c.sh.log ++ es ∧ (∀ id a ho st fi r t, .computed id a ho st fi r t ∉ es)
      ∧ ∀ id a r cached t, .answered id a r cached t ∈ es → srv.repos a.repo = none ∧ ∃ m, r = .error m := by
  have main : Reachable W srv c' ∧ c'.sh.poisoned = true ∧ ∃ es, c'.sh.log = c.sh.log ++ es ∧ (∀ id a ho st fi r t, .computed id a ho st fi r t ∉ es)
      ∧ ∀ id a r cached t, .answered id a r cached t ∈ es → srv.repos a.repo = none ∧ ∃ m, r = .error m := by
    induction hl with
    | refl => exact ⟨h, hp, [], by simp, by simp, by simp⟩
    | @step c1 c2 hl hs ih =>
      obtain ⟨hr, hp1, es, he, h1, h2⟩ := ih
      refine ⟨.step hr hs, ?_⟩
      have hfree := poisoned_free hr hp1
      cases hs with
      | arrive r => exact ⟨hp1, es, he, h1, h2⟩
      | tick n => exact ⟨hp1, es, he, h1, h2⟩
      | thread i hs =>
        obtain ⟨pc, pc', s', hi, ha, rfl⟩ := hs
        have hm := (locksOk_reachable hr).mutex
        have hle := le_total mutexBy hi
        rw [hfree, Bool.toNat_false] at hm
        have h0 : mutexBy pc = 0 := by omega
        have same : ∀ s' : Shared W.State, s'.poisoned = c1.sh.poisoned → s'.log = c1.sh.log → s'.poisoned = true ∧ ∃ es,
            s'.log = c.sh.log ++ es ∧ (∀ id a ho st fi r t, .computed id a ho st fi r t ∉ es)
            ∧ ∀ id a r cached t, .answered id a r cached t ∈ es → srv.repos a.repo = none ∧ ∃ m, r = .error m :=
          fun s' e1 e2 => ⟨e1 ▸ hp1, es, e2 ▸ he, h1, h2⟩
        have more : ∀ (s' : Shared W.State) (e : Entry W.State), s'.poisoned = c1.sh.poisoned → s'.log = c1.sh.log ++ [e] → e.plain = true →
            (∀ id a r cached t, e = .answered id a r cached t → srv.repos a.repo = none ∧ ∃ m, r = .error m) → s'.poisoned = true ∧ ∃ es,
            s'.log = c.sh.log ++ es ∧ (∀ id a ho st fi r t, .computed id a ho st fi r t ∉ es)
            ∧ ∀ id a r cached t, .answered id a r cached t ∈ es → srv.repos a.repo = none ∧ ∃ m, r = .error m := by
          intro s' e e1 e2 e3 e4
          refine ⟨e1 ▸ hp1, es ++ [e], by rw [e2, he, List.append_assoc], ?_, ?_⟩
          · intro id a ho st fi r t hm
            exact h1 _ _ _ _ _ _ _ ((mem_plain e3).1 hm)
          · intro id a r cached t hm
            rw [List.mem_append, List.mem_singleton] at hm
            rcases hm with hm | hm
            · exact h2 _ _ _ _ _ hm
            · exact e4 _ _ _ _ _ hm.symm
        cases ha with
        | @scanDrop next i _ => split <;> exact same _ rfl rfl
        | @scanEnd next i _ hi => split <;> exact same _ rfl rfl
        | unknown h => exact more _ _ rfl rfl rfl fun id a r cached t e => by cases e; exact ⟨h, _, rfl⟩
        | lock h1 h2 => rw [hp1] at h2; cases h2
        | lockPoisoned => exact more _ _ rfl rfl rfl fun id a r cached t e => by cases e
        | branchOk => exact more _ _ rfl rfl rfl fun id a r cached t e => by cases e
        | branchErr => exact more _ _ rfl rfl rfl fun id a r cached t e => by cases e
        | branchPanic => exact more _ _ rfl rfl rfl fun id a r cached t e => by cases e
        | hit => cases h0
        | expired => cases h0
        | miss => cases h0
        | permit => cases h0
        | work => cases h0
        | ended => cases h0
        | storeOk => cases h0
        | storeErr => cases h0
        | storePanic => cases h0
        | _ => exact same _ rfl rfl
  exact main.2

/-! ### C55: comparisons do not interfere -/

/-- C55: while a comparison runs, no other request changes its repository. -/
theorem C55_exclusive {c c' : Config W.State} (h : Reachable W srv c) {i j : Nat} {a : CompareArgs} {ho : HashOrder} {st : W.State}
    {p : Prog (List ExtrinsicDiff)} (hi : c.threads[i]? = some (.running a ho st p)) (hij : i ≠ j) (hs : ThreadStep W srv j c c') :
    c'.sh.repo a.repo = c.sh.repo a.repo ∧ c'.threads[i]? = c.threads[i]? := by
  obtain ⟨pc, pc', s', hj, ha, rfl⟩ := hs
  have h1 : exclusiveBy srv (srv.shardOf a.repo) (Pc.running a ho st p) = 1 := by simp [exclusiveBy]
  obtain ⟨h2, h3⟩ := excl_alone (locksOk_reachable h) hij hi hj h1
  exact ⟨repo_step ha a.repo h2 h3, List.getElem?_set_ne (Ne.symm hij)⟩

/-- C55: at most one request runs a comparison at a time, on whatever repository. -/
theorem C55_one_at_a_time {c : Config W.State} (h : Reachable W srv c) {i j : Nat} {a a' : CompareArgs} {ho ho' : HashOrder}
    {st st' : W.State} {p p' : Prog (List ExtrinsicDiff)} (hi : c.threads[i]? = some (.running a ho st p))
    (hj : c.threads[j]? = some (.running a' ho' st' p')) : i = j :=
  mutex_unique (locksOk_reachable h) hi hj rfl rfl

/-- C55: while a comparison runs, no branch listing of the same repository runs. -/
theorem C55_no_listing {c : Config W.State} (h : Reachable W srv c) {i j : Nat} {a : CompareArgs} {ho : HashOrder} {st : W.State}
    {p : Prog (List ExtrinsicDiff)} {p' : Prog (List (Str × Str))} (hi : c.threads[i]? = some (.running a ho st p)) :
    c.threads[j]? ≠ some (.branching a.repo p') := by
  intro hj
  have hij : i ≠ j := by rintro rfl; rw [hi] at hj; cases hj
  have h1 : exclusiveBy srv (srv.shardOf a.repo) (Pc.running a ho st p) = 1 := by simp [exclusiveBy]
  obtain ⟨-, h3⟩ := excl_alone (locksOk_reachable h) hij hi hj h1
  simp [sharedBy] at h3

/-- C55: the recorded outcome of every comparison is that of running it alone. -/
theorem C55_result {c : Config W.State} (h : Reachable W srv c) {id : Nat} {a : CompareArgs} {ho : HashOrder} {st fi : W.State}
    {r : Res (List ExtrinsicDiff)} {t : Nat} (hm : .computed id a ho st fi r t ∈ c.sh.log) : Alone W srv ho a st r fi := by
  obtain ⟨pre, post, hl⟩ := List.append_of_mem hm
  have := (inv_reachable h).shared.log.split hl
  exact doCompare_alone this.1 this.2.1

theorem reachable_later {c c' : Config W.State} (h : Reachable W srv c) (hl : Later W srv c c') : Reachable W srv c' := by
  induction hl with
  | refl => exact h
  | step _ hs ih => exact .step ih hs

/-- A request records a comparison only when it ends. -/
theorem computed_of_step {id : Nat} {pc pc' : Pc W.State} {s s' : Shared W.State} (ha : Act1 W srv id pc s pc' s')
    {id' a ho st fi r t} (hm : Entry.computed id' a ho st fi r t ∈ s'.log) :
    Entry.computed id' a ho st fi r t ∈ s.log ∨ (id' = id ∧ pc = .store a ho st fi r ∧ pc' = .finished) := by
  have aux : ∀ {l : List (Entry W.State)} {id a ho st fi r t id0 a0 ho0 st0 fi0 r0 t0} {e : Entry W.State}, e.plain = true →
      Entry.computed id a ho st fi r t ∈ l ++ [.computed id0 a0 ho0 st0 fi0 r0 t0, e] →
      Entry.computed id a ho st fi r t ∈ l ∨ (id = id0 ∧ a = a0 ∧ ho = ho0 ∧ st = st0 ∧ fi = fi0 ∧ r = r0) := by
    intro l id a ho st fi r t id0 a0 ho0 st0 fi0 r0 t0 e he hm
    simp only [List.mem_append, List.mem_cons, List.not_mem_nil, or_false] at hm
    rcases hm with hm | hm | hm
    · exact Or.inl hm
    · cases hm; exact Or.inr ⟨rfl, rfl, rfl, rfl, rfl, rfl⟩
    · subst hm; cases he
  cases ha with
  | storeOk => rcases aux rfl hm with h | ⟨rfl, rfl, rfl, rfl, rfl, rfl⟩; exacts [Or.inl h, Or.inr ⟨rfl, rfl, rfl⟩]
  | storeErr => rcases aux rfl hm with h | ⟨rfl, rfl, rfl, rfl, rfl, rfl⟩; exacts [Or.inl h, Or.inr ⟨rfl, rfl, rfl⟩]
  | storePanic => rcases aux rfl hm with h | ⟨rfl, rfl, rfl, rfl, rfl, rfl⟩; exacts [Or.inl h, Or.inr ⟨rfl, rfl, rfl⟩]
  | @scanDrop next i _ => split at hm <;> exact Or.inl hm
  | @scanEnd next i _ hi => split at hm <;> exact Or.inl hm
  | hit => exact Or.inl ((mem_plain rfl).1 hm)
  | unknown => exact Or.inl ((mem_plain rfl).1 hm)
  | lockPoisoned => exact Or.inl ((mem_plain rfl).1 hm)
  | branchOk => exact Or.inl ((mem_plain rfl).1 hm)
  | branchErr => exact Or.inl ((mem_plain rfl).1 hm)
  | branchPanic => exact Or.inl ((mem_plain rfl).1 hm)
  | _ => exact Or.inl hm

theorem getElem?_lt {α : Type} {l : List α} {i : Nat} {x : α} (h : l[i]? = some x) : i < l.length := by
  by_contra hc
  rw [List.getElem?_eq_none (by omega)] at h
  cases h

/-- An unfinished request has recorded nothing. -/
theorem unfinished_unrecorded {c : Config W.State} (h : Reachable W srv c) {i : Nat} {a ho st fi r t}
    (hm : Entry.computed i a ho st fi r t ∈ c.sh.log) : c.threads[i]? = some .finished := by
  induction h with
  | init => cases hm
  | @step c c' h hs ih =>
    cases hs with
    | arrive r => rw [List.getElem?_append_left (getElem?_lt (ih hm))]; exact ih hm
    | tick n => exact ih hm
    | thread j hs =>
      obtain ⟨pc, pc', s', hj, ha, rfl⟩ := hs
      rcases computed_of_step ha hm with h' | ⟨rfl, -, rfl⟩
      · have h1 := ih h'
        by_cases hji : j = i
        · subst hji
          rw [h1] at hj
          cases hj
          cases ha
        · rw [List.getElem?_set_ne hji]; exact h1
      · exact List.getElem?_set_self (getElem?_lt hj)

/-- C55: from the moment a request is permitted to compare, whatever the others do, its comparison is that of running it alone from the
state the repository had at that moment. -/
theorem C55_from_start {c0 c1 c2 : Config W.State} (h : Reachable W srv c0) {i : Nat} {a : CompareArgs}
    (hi : c0.threads[i]? = some (.wantShard a)) (hs : ThreadStep W srv i c0 c1) (hl : Later W srv c1 c2)
    {a' : CompareArgs} {ho : HashOrder} {st fi : W.State} {r : Res (List ExtrinsicDiff)} {t : Nat}
    (hm : .computed i a' ho st fi r t ∈ c2.sh.log) : a' = a ∧ Alone W srv ho a (c0.sh.repo a.repo) r fi := by
  have hr1 : Reachable W srv c1 := .step h (.thread i hs)
  obtain ⟨ho0, hc1⟩ : ∃ ho0, c1.threads[i]? = some (.running a ho0 (c0.sh.repo a.repo) (doCompare srv ho0 a)) := by
    obtain ⟨pc, pc', s', hj, ha, rfl⟩ := hs
    rw [hi] at hj
    cases hj
    cases ha with
    | permit ho0 _ => exact ⟨ho0, List.getElem?_set_self (getElem?_lt hi)⟩
  have key : ((∃ p, c2.threads[i]? = some (.running a ho0 (c0.sh.repo a.repo) p)) ∨
      (∃ fi r, c2.threads[i]? = some (.store a ho0 (c0.sh.repo a.repo) fi r)) ∨
      c2.threads[i]? = some .finished) ∧ ∀ a' ho st fi r t, Entry.computed i a' ho st fi r t ∈ c2.sh.log → a' = a ∧ st = c0.sh.repo a.repo := by
    clear hm
    induction hl with
    | refl =>
      refine ⟨Or.inl ⟨_, hc1⟩, fun a' ho st fi r t hm => ?_⟩
      rw [unfinished_unrecorded hr1 hm] at hc1
      cases hc1
    | @step c2 c3 hl hs' ih =>
      obtain ⟨h1, h2⟩ := ih
      cases hs' with
      | tick n => exact ⟨h1, h2⟩
      | arrive q =>
        refine ⟨?_, h2⟩
        have hlt : i < c2.threads.length := by rcases h1 with ⟨p, h1⟩ | ⟨fi, r, h1⟩ | h1 <;> exact getElem?_lt h1
        rw [List.getElem?_append_left hlt]
        exact h1
      | thread j hs' =>
        obtain ⟨pc, pc', s', hj, ha, rfl⟩ := hs'
        by_cases hji : j = i
        · subst hji
          have hlt := getElem?_lt hj
          have hget := List.getElem?_set_self (a := pc') hlt
          refine ⟨?_, ?_⟩
          · rw [hget]
            rcases h1 with ⟨p, h1⟩ | ⟨fi, r, h1⟩ | h1
            · rw [hj] at h1
              cases h1
              cases ha with
              | work => exact Or.inl ⟨_, rfl⟩
              | ended => exact Or.inr (Or.inl ⟨_, _, rfl⟩)
            · rw [hj] at h1
              cases h1
              cases ha <;> exact Or.inr (Or.inr rfl)
            · rw [hj] at h1
              cases h1
              cases ha
          · intro a' ho st fi r t hm
            rcases computed_of_step ha hm with hm | ⟨-, rfl, -⟩
            · exact h2 _ _ _ _ _ _ hm
            · rcases h1 with ⟨p, h1⟩ | ⟨fi, r, h1⟩ | h1
              · rw [hj] at h1; cases h1
              · rw [hj] at h1; cases h1; exact ⟨rfl, rfl⟩
              · rw [hj] at h1; cases h1
        · refine ⟨?_, ?_⟩
          · rw [List.getElem?_set_ne hji]; exact h1
          · intro a' ho st fi r t hm
            rcases computed_of_step ha hm with hm | ⟨rfl, -⟩
            · exact h2 _ _ _ _ _ _ hm
            · exact absurd rfl hji
  obtain ⟨rfl, rfl⟩ := key.2 _ _ _ _ _ _ hm
  exact ⟨rfl, C55_result (reachable_later hr1 hl) hm⟩

end Swc
