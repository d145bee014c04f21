/-
The invariant of the comparisons, the cache and the history of the web server.
-/
import Verif.Lemmas.Locks

namespace Swc

open Prog

variable {W : World} {srv : Server}

/-- No successful comparison for `a` in the log is younger than 600 seconds at time `t`. -/
def NoneFresh {σ : Type} (log : List (Entry σ)) (a : CompareArgs) (t : Nat) : Prop :=
  ∀ id ho st fi v t', Entry.computed id a ho st fi (.ok v) t' ∈ log → isFresh t' t = false

/-- What is known of an entry, given the earlier ones. -/
def EntryOk (W : World) (srv : Server) (pre : List (Entry W.State)) : Entry W.State → Prop
  | .computed _ a ho st fi r t => srv.repos a.repo ≠ none ∧ (r, fi) = (doCompare srv ho a).run W st ∧ NoneFresh pre a t
  | .answered id a r false t => (srv.repos a.repo = none ∧ ∃ m, r = .error m) ∨
      ∃ pre' ho st fi res, pre = pre' ++ [.computed id a ho st fi res t] ∧
        ((∃ v, res = .ok v ∧ r = .ok v) ∨ ∃ m, res = .err m ∧ r = .error m)
  | .answered _ a r true t => ∃ v, r = .ok v ∧ ∃ id' ho st fi t', .computed id' a ho st fi (.ok v) t' ∈ pre ∧ t' ≤ t ∧ isFresh t' t = true
  | .died _ => True
  | .listed _ _ _ => True

/-- Every entry is justified by the earlier ones. -/
inductive LogOk (W : World) (srv : Server) : List (Entry W.State) → Prop
  | nil : LogOk W srv []
  | snoc {l e} (h : LogOk W srv l) (he : EntryOk W srv l e) : LogOk W srv (l ++ [e])

theorem LogOk.split {l pre post : List (Entry W.State)} {e : Entry W.State} (h : LogOk W srv l) (hl : l = pre ++ e :: post) :
    EntryOk W srv pre e := by
  induction h generalizing post with
  | nil => simp at hl
  | @snoc l e' h he ih =>
    rcases List.eq_nil_or_concat post with rfl | ⟨post', x, rfl⟩
    · obtain ⟨rfl, h2⟩ := List.append_inj' hl rfl
      simp only [List.cons.injEq, and_true] at h2
      exact h2 ▸ he
    · refine ih (post := post') ?_
      rw [List.concat_eq_append, ← List.cons_append, ← List.append_assoc] at hl
      exact (List.append_inj' hl rfl).1

/-- What is known of a request. -/
def ThreadOk (W : World) (srv : Server) (s : Shared W.State) : Pc W.State → Prop
  | .wantMutex a => srv.repos a.repo ≠ none
  | .check a => srv.repos a.repo ≠ none
  | .wantShard a => srv.repos a.repo ≠ none ∧ NoneFresh s.log a s.clock
  | .running a ho st p => srv.repos a.repo ≠ none ∧ NoneFresh s.log a s.clock ∧ Ends p ∧
      p.run W (s.repo a.repo) = (doCompare srv ho a).run W st
  | .store a ho st fi r => srv.repos a.repo ≠ none ∧ NoneFresh s.log a s.clock ∧ Halts r ∧ (r, fi) = (doCompare srv ho a).run W st
  | .branching _ p => Ends p
  | .scanBoth _ i => i < srv.shards
  | _ => True

/-- What is known of the shared state. -/
structure SharedOk (W : World) (srv : Server) (s : Shared W.State) : Prop where
  cache : ∀ a t v, (a, t, v) ∈ s.cache → ∃ id ho st fi, Entry.computed id a ho st fi (.ok v) t ∈ s.log
  times : ∀ id a ho st fi r t, Entry.computed id a ho st fi r t ∈ s.log → t ≤ s.clock
  log : LogOk W srv s.log
  fresh : ∀ id a ho st fi v t, Entry.computed id a ho st fi (.ok v) t ∈ s.log → isFresh t s.clock = true →
    ∃ t' v', cacheGet s.cache a = some (t', v') ∧ t ≤ t'

theorem isFresh_mono {t t' n n' : Nat} (h : isFresh t n = true) (ht : t ≤ t') (hn : n' ≤ n) : isFresh t' n' = true := by
  unfold isFresh at *
  simp only [decide_eq_true_eq] at *
  have : (n' - t') / 10 ^ 9 ≤ (n - t) / 10 ^ 9 := Nat.div_le_div_right (by omega)
  omega

theorem isFresh_false_mono {t t' n n' : Nat} (h : isFresh t n = false) (ht : t' ≤ t) (hn : n ≤ n') : isFresh t' n' = false := by
  cases hc : isFresh t' n' with
  | false => rfl
  | true => rw [isFresh_mono hc ht hn] at h; cases h

theorem cacheGet_mem {cache : List (CompareArgs × Nat × List ExtrinsicDiff)} {a : CompareArgs} {t : Nat} {v : List ExtrinsicDiff}
    (h : cacheGet cache a = some (t, v)) : (a, t, v) ∈ cache := by
  unfold cacheGet at h
  cases hf : cache.find? fun e => e.1 = a with
  | none => rw [hf] at h; cases h
  | some e =>
    rw [hf] at h
    simp only [Option.map_some, Option.some.injEq] at h
    have h1 := List.mem_of_find?_eq_some hf
    have h2 := List.find?_some hf
    simp only [decide_eq_true_eq] at h2
    obtain ⟨e1, e2⟩ := e
    simp only at h h2
    subst h2 h
    exact h1

theorem cacheGet_remove {cache : List (CompareArgs × Nat × List ExtrinsicDiff)} {a b : CompareArgs} (h : b ≠ a) :
    cacheGet (cacheRemove cache a) b = cacheGet cache b := by
  unfold cacheGet cacheRemove
  rw [List.find?_filter]
  congr 2
  funext e
  by_cases he : e.1 = b
  · simp [he, h]
  · simp [he]

theorem cacheGet_store {cache : List (CompareArgs × Nat × List ExtrinsicDiff)} {a : CompareArgs} {t : Nat} {v : List ExtrinsicDiff} :
    cacheGet ((a, t, v) :: cacheRemove cache a) a = some (t, v) := by
  simp [cacheGet]

theorem cacheGet_store_ne {cache : List (CompareArgs × Nat × List ExtrinsicDiff)} {a b : CompareArgs} {t : Nat} {v : List ExtrinsicDiff}
    (h : b ≠ a) : cacheGet ((a, t, v) :: cacheRemove cache a) b = cacheGet cache b := by
  rw [← cacheGet_remove (cache := cache) h]
  unfold cacheGet
  rw [List.find?_cons_of_neg]
  simpa using fun h' => h h'.symm

section

variable {id : Nat} {pc pc' : Pc W.State} {s s' : Shared W.State}

/-- Entries other than comparisons do not matter to most of the invariant. -/
def Entry.plain {σ : Type} : Entry σ → Bool
  | .computed .. => false
  | _ => true

theorem mem_plain {σ : Type} {l : List (Entry σ)} {e : Entry σ} (he : e.plain = true) {id a ho st fi r t} :
    Entry.computed id a ho st fi r t ∈ l ++ [e] ↔ Entry.computed id a ho st fi r t ∈ l := by
  rw [List.mem_append]
  constructor
  · rintro (h | h)
    · exact h
    · rw [List.mem_singleton] at h; subst h; cases he
  · exact Or.inl

theorem sharedOk_congr (h : SharedOk W srv s) (h1 : s'.cache = s.cache) (h2 : s'.log = s.log) (h3 : s'.clock = s.clock) : SharedOk W srv s' := by
  refine ⟨?_, ?_, ?_, ?_⟩
  · rw [h1, h2]; exact h.cache
  · rw [h2, h3]; exact h.times
  · rw [h2]; exact h.log
  · rw [h1, h2, h3]; exact h.fresh

theorem sharedOk_note {e : Entry W.State} (h : SharedOk W srv s) (h2 : s'.log = s.log ++ [e]) (he : e.plain = true)
    (ho : EntryOk W srv s.log e) (h1 : s'.cache = s.cache) (h3 : s'.clock = s.clock) : SharedOk W srv s' := by
  refine ⟨?_, ?_, ?_, ?_⟩
  · rw [h1, h2]
    intro a t v hm
    obtain ⟨id, ho, st, fi, hc⟩ := h.cache a t v hm
    exact ⟨id, ho, st, fi, List.mem_append_left _ hc⟩
  · rw [h2, h3]
    intro id a ho st fi r t hm
    exact h.times id a ho st fi r t ((mem_plain he).1 hm)
  · rw [h2]; exact .snoc h.log ho
  · rw [h1, h2, h3]
    intro id a ho st fi r t hm
    exact h.fresh id a ho st fi r t ((mem_plain he).1 hm)

theorem sharedOk_computed {id a ho st fi} {r : Res (List ExtrinsicDiff)} (h : SharedOk W srv s)
    (he : EntryOk W srv s.log (.computed id a ho st fi r s.clock)) (hr : ∀ v, r ≠ .ok v)
    (h1 : s'.cache = s.cache) (h2 : s'.log = s.log ++ [.computed id a ho st fi r s.clock]) (h3 : s'.clock = s.clock) : SharedOk W srv s' := by
  refine ⟨?_, ?_, ?_, ?_⟩
  · rw [h1, h2]
    intro a t v hm
    obtain ⟨id, ho, st, fi, hc⟩ := h.cache a t v hm
    exact ⟨id, ho, st, fi, List.mem_append_left _ hc⟩
  · rw [h2, h3]
    intro id a ho st fi r t hm
    rw [List.mem_append, List.mem_singleton] at hm
    rcases hm with hm | hm
    · exact h.times id a ho st fi r t hm
    · cases hm; exact Nat.le_refl _
  · rw [h2]; exact .snoc h.log he
  · rw [h1, h2, h3]
    intro id a ho st fi v t hm
    rw [List.mem_append, List.mem_singleton] at hm
    rcases hm with hm | hm
    · exact h.fresh id a ho st fi v t hm
    · cases hm; exact absurd rfl (hr v)

theorem sharedOk_stored {id a ho st fi v} (h : SharedOk W srv s)
    (he : EntryOk W srv s.log (.computed id a ho st fi (.ok v) s.clock))
    (h1 : s'.cache = (a, s.clock, v) :: cacheRemove s.cache a) (h2 : s'.log = s.log ++ [.computed id a ho st fi (.ok v) s.clock])
    (h3 : s'.clock = s.clock) : SharedOk W srv s' := by
  refine ⟨?_, ?_, ?_, ?_⟩
  · rw [h1, h2]
    intro b t w hm
    rw [List.mem_cons] at hm
    rcases hm with hm | hm
    · cases hm; exact ⟨id, ho, st, fi, by simp⟩
    · obtain ⟨id, ho, st, fi, hc⟩ := h.cache b t w (List.mem_of_mem_filter hm)
      exact ⟨id, ho, st, fi, List.mem_append_left _ hc⟩
  · rw [h2, h3]
    intro id a ho st fi r t hm
    rw [List.mem_append, List.mem_singleton] at hm
    rcases hm with hm | hm
    · exact h.times id a ho st fi r t hm
    · cases hm; exact Nat.le_refl _
  · rw [h2]; exact .snoc h.log he
  · rw [h1, h2, h3]
    intro id b ho st fi w t hm hf
    by_cases hb : b = a
    · subst hb
      refine ⟨_, _, cacheGet_store, ?_⟩
      rw [List.mem_append, List.mem_singleton] at hm
      rcases hm with hm | hm
      · exact h.times _ _ _ _ _ _ _ hm
      · cases hm; exact Nat.le_refl _
    · rw [cacheGet_store_ne hb]
      rw [List.mem_append, List.mem_singleton] at hm
      rcases hm with hm | hm
      · exact h.fresh _ _ _ _ _ _ _ hm hf
      · cases hm; exact absurd rfl hb

/-- A step keeps what is known of the request itself and of the shared state. -/
theorem own_step (ha : Act1 W srv id pc s pc' s') (hp : ThreadOk W srv s pc) (hs : SharedOk W srv s) :
    ThreadOk W srv s' pc' ∧ SharedOk W srv s' := by
  cases ha with
  | scanTake hi h => exact ⟨hi, sharedOk_congr hs rfl rfl rfl⟩
  | @scanDrop next i _ =>
    refine ⟨trivial, ?_⟩
    split
    · exact hs
    · exact sharedOk_congr hs rfl rfl rfl
  | @scanEnd next i _ hi =>
    refine ⟨by cases next <;> trivial, ?_⟩
    split
    · exact hs
    · exact sharedOk_congr hs rfl rfl rfl
  | lookup h => exact ⟨trivial, sharedOk_congr hs rfl rfl rfl⟩
  | known h => exact ⟨h, sharedOk_congr hs rfl rfl rfl⟩
  | unknown h => exact ⟨trivial, sharedOk_note hs rfl rfl (Or.inl ⟨h, _, rfl⟩) rfl rfl⟩
  | lock h hpo => exact ⟨hp, sharedOk_congr hs rfl rfl rfl⟩
  | lockPoisoned h hpo => exact ⟨trivial, sharedOk_note hs rfl rfl trivial rfl rfl⟩
  | @hit a _ t v h hf =>
    obtain ⟨id', ho, st, fi, hm⟩ := hs.cache a t v (cacheGet_mem h)
    exact ⟨trivial, sharedOk_note hs rfl rfl ⟨v, rfl, id', ho, st, fi, t, hm, hs.times _ _ _ _ _ _ _ hm, hf⟩ rfl rfl⟩
  | @expired a _ t v h hf =>
    have hn : NoneFresh s.log a s.clock := by
      intro id ho st fi w t' hm
      cases hc : isFresh t' s.clock with
      | false => rfl
      | true =>
        obtain ⟨t'', v'', h1, h2⟩ := hs.fresh _ _ _ _ _ _ _ hm hc
        rw [h1] at h
        cases h
        rw [isFresh_mono hc h2 (Nat.le_refl _)] at hf
        cases hf
    refine ⟨⟨hp, hn⟩, ⟨?_, hs.times, hs.log, ?_⟩⟩
    · intro b t v hm
      exact hs.cache b t v (List.mem_of_mem_filter hm)
    · intro id b ho st fi w t' hm hf'
      have hb : b ≠ a := by
        rintro rfl
        have := hn _ _ _ _ _ _ hm
        exact absurd hf' (by show ¬ isFresh t' s.clock = true; rw [this]; decide)
      show ∃ t' v', cacheGet (cacheRemove s.cache a) b = some (t', v') ∧ _
      rw [cacheGet_remove hb]
      exact hs.fresh _ _ _ _ _ _ _ hm hf'
  | @miss a _ h =>
    refine ⟨⟨hp, ?_⟩, sharedOk_congr hs rfl rfl rfl⟩
    intro id ho st fi w t' hm
    cases hc : isFresh t' s.clock with
    | false => exact hc
    | true =>
      obtain ⟨t'', v'', h1, h2⟩ := hs.fresh _ _ _ _ _ _ _ hm hc
      rw [h1] at h
      cases h
  | permit ho h => exact ⟨⟨hp.1, hp.2, doCompare_ends _ _ _, rfl⟩, sharedOk_congr hs rfl rfl rfl⟩
  | @work a ho st p p' _ w h =>
    refine ⟨⟨hp.1, hp.2.1, ends_step hp.2.2.1 h, ?_⟩, sharedOk_congr hs rfl rfl rfl⟩
    rw [← hp.2.2.2, ← run_step h]
    simp [updAt]
  | @ended a ho st r _ h => exact ⟨⟨hp.1, hp.2.1, h, hp.2.2.2⟩, sharedOk_congr hs rfl rfl rfl⟩
  | @storeOk a ho st fi v _ =>
    have h1 : SharedOk W srv { s with mutex := false, cache := (a, s.clock, v) :: cacheRemove s.cache a, log := s.log ++ [.computed id a ho st fi (.ok v) s.clock] } :=
      sharedOk_stored hs ⟨hp.1, hp.2.2.2, hp.2.1⟩ rfl rfl rfl
    refine ⟨trivial, sharedOk_note (e := .answered id a (.ok v) false s.clock) h1 ?_ rfl (Or.inr ⟨_, _, _, _, _, rfl, Or.inl ⟨v, rfl, rfl⟩⟩) rfl rfl⟩
    simp [Shared.note]
  | @storeErr a ho st fi m _ =>
    have h1 : SharedOk W srv { s with mutex := false, log := s.log ++ [.computed id a ho st fi (.err m) s.clock] } :=
      sharedOk_computed hs ⟨hp.1, hp.2.2.2, hp.2.1⟩ (fun v h => by cases h) rfl rfl rfl
    refine ⟨trivial, sharedOk_note (e := .answered id a (.error m) false s.clock) h1 ?_ rfl (Or.inr ⟨_, _, _, _, _, rfl, Or.inr ⟨m, rfl, rfl⟩⟩) rfl rfl⟩
    simp [Shared.note]
  | @storePanic a ho st fi _ =>
    have h1 : SharedOk W srv { s with mutex := false, poisoned := true, log := s.log ++ [.computed id a ho st fi .panic s.clock] } :=
      sharedOk_computed hs ⟨hp.1, hp.2.2.2, hp.2.1⟩ (fun v h => by cases h) rfl rfl rfl
    refine ⟨trivial, sharedOk_note (e := .died id) h1 ?_ rfl trivial rfl rfl⟩
    simp [Shared.note]
  | branchTake h => exact ⟨branchesP_ends _ _ _, sharedOk_congr hs rfl rfl rfl⟩
  | branchWork h => exact ⟨ends_step hp h, sharedOk_congr hs rfl rfl rfl⟩
  | branchOk => exact ⟨trivial, sharedOk_note hs rfl rfl trivial rfl rfl⟩
  | branchErr => exact ⟨trivial, sharedOk_note hs rfl rfl trivial rfl rfl⟩
  | branchPanic => exact ⟨trivial, sharedOk_note hs rfl rfl trivial rfl rfl⟩

/-- Only a request that has locked the shard changes a repository. -/
theorem repo_step (ha : Act1 W srv id pc s pc' s') (r : Str) (h1 : exclusiveBy srv (srv.shardOf r) pc = 0)
    (h2 : sharedBy srv (srv.shardOf r) pc = 0) : s'.repo r = s.repo r := by
  cases ha with
  | @scanDrop next i _ => split <;> rfl
  | @scanEnd next i _ hi => split <;> rfl
  | @work a ho st p p' _ w h =>
    have : r ≠ a.repo := by
      rintro rfl
      simp [exclusiveBy] at h1
    simp [updAt, this]
  | @branchWork r' p p' _ w h =>
    have : r ≠ r' := by
      rintro rfl
      simp [sharedBy] at h2
    simp [updAt, this]
  | _ => rfl

/-- Only a request that holds the mutex records a comparison. -/
theorem computed_step (ha : Act1 W srv id pc s pc' s') (h : mutexBy pc = 0) {id' a ho st fi r t} :
    Entry.computed id' a ho st fi r t ∈ s'.log → Entry.computed id' a ho st fi r t ∈ s.log := by
  cases ha with
  | @scanDrop next i _ => split <;> exact fun h => h
  | @scanEnd next i _ hi => split <;> exact fun h => h
  | storeOk => cases h
  | storeErr => cases h
  | storePanic => cases h
  | unknown => exact (mem_plain rfl).1
  | lockPoisoned => exact (mem_plain rfl).1
  | hit => cases h
  | branchOk => exact (mem_plain rfl).1
  | branchErr => exact (mem_plain rfl).1
  | branchPanic => exact (mem_plain rfl).1
  | _ => exact fun h => h

theorem clock_step (ha : Act1 W srv id pc s pc' s') : s'.clock = s.clock := by
  cases ha with
  | @scanDrop next i _ => split <;> rfl
  | @scanEnd next i _ hi => split <;> rfl
  | _ => rfl

end

/-- The invariant. -/
structure Inv (W : World) (srv : Server) (c : Config W.State) : Prop where
  locks : LocksOk srv c
  threads : ∀ (i : Nat) pc, c.threads[i]? = some pc → ThreadOk W srv c.sh pc
  shared : SharedOk W srv c.sh

theorem noneFresh_mono {σ : Type} {log log' : List (Entry σ)} {a : CompareArgs} {t t' : Nat} (h : NoneFresh log a t) (ht : t ≤ t')
    (hl : ∀ id ho st fi v t, Entry.computed id a ho st fi (.ok v) t ∈ log' → Entry.computed id a ho st fi (.ok v) t ∈ log) :
    NoneFresh log' a t' := fun id ho st fi v u hm => isFresh_false_mono (h id ho st fi v u (hl _ _ _ _ _ _ hm)) (Nat.le_refl _) ht

/-- A step of one request keeps what is known of the others. -/
theorem other_step {c : Config W.State} {i j : Nat} {pc pc' q : Pc W.State} {s' : Shared W.State} (hl : LocksOk srv c)
    (hij : i ≠ j) (hi : c.threads[i]? = some pc) (hj : c.threads[j]? = some q) (ha : Act1 W srv i pc c.sh pc' s')
    (hq : ThreadOk W srv c.sh q) : ThreadOk W srv s' q := by
  have hmut : mutexBy q = 1 → mutexBy pc = 0 := by
    intro h
    by_contra h'
    have h1 : mutexBy pc = 1 := by cases pc <;> simp_all [mutexBy]
    exact hij (mutex_unique hl hi hj h1 h)
  have hnf : ∀ a, mutexBy q = 1 → NoneFresh c.sh.log a c.sh.clock → NoneFresh s'.log a s'.clock := by
    intro a hm h
    exact noneFresh_mono h (by rw [clock_step ha]) fun _ _ _ _ _ _ => computed_step ha (hmut hm)
  cases q with
  | wantShard a => exact ⟨hq.1, hnf a rfl hq.2⟩
  | running a ho st p =>
    refine ⟨hq.1, hnf a rfl hq.2.1, hq.2.2.1, ?_⟩
    have h1 : exclusiveBy srv (srv.shardOf a.repo) (Pc.running a ho st p) = 1 := by simp [exclusiveBy]
    obtain ⟨h2, h3⟩ := excl_alone hl (Ne.symm hij) hj hi h1
    rw [repo_step ha a.repo h2 h3]
    exact hq.2.2.2
  | store a ho st fi r => exact ⟨hq.1, hnf a rfl hq.2.1, hq.2.2.1, hq.2.2.2⟩
  | _ => exact hq

theorem threadOk_begin (s : Shared W.State) (r : Request) : ThreadOk W srv s (begin r) := by
  cases r <;> trivial

theorem threadOk_tick {s : Shared W.State} {pc : Pc W.State} (n : Nat) (h : ThreadOk W srv s pc) :
    ThreadOk W srv { s with clock := s.clock + n } pc := by
  have hnf : ∀ a, NoneFresh s.log a s.clock → NoneFresh s.log a (s.clock + n) := fun a h =>
    noneFresh_mono h (Nat.le_add_right _ _) fun _ _ _ _ _ _ h => h
  cases pc with
  | wantShard a => exact ⟨h.1, hnf a h.2⟩
  | running a ho st p => exact ⟨h.1, hnf a h.2.1, h.2.2⟩
  | store a ho st fi r => exact ⟨h.1, hnf a h.2.1, h.2.2⟩
  | _ => exact h

theorem inv_init (repo : Str → W.State) (clock : Nat) : Inv W srv (initial W repo clock) :=
  ⟨locksOk_init repo clock, fun i pc h => by simp [initial] at h,
    ⟨fun _ _ _ h => (by cases h), fun _ _ _ _ _ _ _ h => (by cases h), .nil, fun _ _ _ _ _ _ _ h => (by cases h)⟩⟩

theorem inv_step {c c' : Config W.State} (h : Inv W srv c) (hs : Step W srv c c') : Inv W srv c' := by
  refine ⟨locksOk_step h.locks hs, ?_, ?_⟩
  · cases hs with
    | thread i h1 =>
      obtain ⟨pc, pc', s', hi, ha, rfl⟩ := h1
      intro j q hj
      have hlen : i < c.threads.length := by
        by_contra hc
        rw [List.getElem?_eq_none (by omega)] at hi
        cases hi
      by_cases hij : i = j
      · subst hij
        rw [List.getElem?_set_self hlen] at hj
        cases hj
        exact (own_step ha (h.threads i pc hi) h.shared).1
      · rw [List.getElem?_set_ne hij] at hj
        exact other_step h.locks hij hi hj ha (h.threads j q hj)
    | arrive r =>
      intro j q hj
      rw [List.getElem?_append] at hj
      split at hj
      · exact h.threads j q hj
      · have : q = begin r := by
          cases hd : j - c.threads.length with
          | zero => rw [hd] at hj; simpa using hj.symm
          | succ n => rw [hd] at hj; simp at hj
        subst this
        exact threadOk_begin _ _
    | tick n =>
      intro j q hj
      exact threadOk_tick n (h.threads j q hj)
  · cases hs with
    | thread i h1 =>
      obtain ⟨pc, pc', s', hi, ha, rfl⟩ := h1
      exact (own_step ha (h.threads i pc hi) h.shared).2
    | arrive r => exact h.shared
    | tick n =>
      refine ⟨h.shared.cache, fun id a ho st fi r t hm => ?_, h.shared.log, fun id a ho st fi v t hm hf => ?_⟩
      · have := h.shared.times id a ho st fi r t hm
        show t ≤ c.sh.clock + n
        omega
      · exact h.shared.fresh id a ho st fi v t hm (isFresh_mono hf (Nat.le_refl _) (Nat.le_add_right _ _))

theorem inv_reachable {c : Config W.State} (h : Reachable W srv c) : Inv W srv c := by
  induction h with
  | init repo clock => exact inv_init repo clock
  | step _ hs ih => exact inv_step ih hs

end Swc
