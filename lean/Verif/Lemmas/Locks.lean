/-
The invariant of the locks of the web server: every lock is held by exactly the requests that should hold it.
-/
import Verif.Lemmas.Prog

namespace Swc

variable {σ : Type}

/-- How often the request holds shard `k` shared. -/
def sharedBy (srv : Server) (k : Nat) : Pc σ → Nat
  | .scan _ i => if i = k + 1 then 1 else 0
  | .scanBoth _ i => (if i = k + 1 then 1 else 0) + (if i = k then 1 else 0)
  | .looking a => if srv.shardOf a.repo = k then 1 else 0
  | .branching r _ => if srv.shardOf r = k then 1 else 0
  | _ => 0

/-- Whether the request holds shard `k` exclusively. -/
def exclusiveBy (srv : Server) (k : Nat) : Pc σ → Nat
  | .running a _ _ _ => if srv.shardOf a.repo = k then 1 else 0
  | _ => 0

/-- Whether the request waits for shard `k`. -/
def waitedBy (srv : Server) (k : Nat) : Pc σ → Nat
  | .wantShard a => if srv.shardOf a.repo = k then 1 else 0
  | _ => 0

/-- Whether the request holds the mutex of the cache. -/
def mutexBy : Pc σ → Nat
  | .check _ => 1
  | .wantShard _ => 1
  | .running _ _ _ _ => 1
  | .store _ _ _ _ _ => 1
  | _ => 0

/-- Sum over all requests. -/
def total (f : Pc σ → Nat) (l : List (Pc σ)) : Nat := (l.map f).sum

theorem total_append (f : Pc σ → Nat) (l m : List (Pc σ)) : total f (l ++ m) = total f l + total f m := by
  simp [total]

theorem total_set (f : Pc σ → Nat) {l : List (Pc σ)} {i : Nat} {pc : Pc σ} (pc' : Pc σ) (h : l[i]? = some pc) :
    total f (l.set i pc') + f pc = total f l + f pc' := by
  induction l generalizing i with
  | nil => simp at h
  | cons x l ih =>
    cases i with
    | zero =>
      simp only [List.getElem?_cons_zero, Option.some.injEq] at h
      subst h
      simp only [List.set_cons_zero, total, List.map_cons, List.sum_cons]
      omega
    | succ i =>
      simp only [List.getElem?_cons_succ] at h
      have := ih h
      simp only [List.set_cons_succ, total, List.map_cons, List.sum_cons] at this ⊢
      omega

theorem le_total (f : Pc σ → Nat) {l : List (Pc σ)} {i : Nat} {pc : Pc σ} (h : l[i]? = some pc) : f pc ≤ total f l := by
  induction l generalizing i with
  | nil => simp at h
  | cons x l ih =>
    cases i with
    | zero => simp only [List.getElem?_cons_zero, Option.some.injEq] at h; subst h; simp [total]
    | succ i =>
      simp only [List.getElem?_cons_succ] at h
      have := ih h
      simp only [total, List.map_cons, List.sum_cons] at this ⊢
      omega

theorem two_le_total (f : Pc σ → Nat) {l : List (Pc σ)} {i j : Nat} {x y : Pc σ} (hij : i ≠ j) (hi : l[i]? = some x) (hj : l[j]? = some y) :
    f x + f y ≤ total f l := by
  induction l generalizing i j with
  | nil => simp at hi
  | cons z l ih =>
    cases i with
    | zero =>
      cases j with
      | zero => exact absurd rfl hij
      | succ j =>
        simp only [List.getElem?_cons_zero, Option.some.injEq, List.getElem?_cons_succ] at hi hj
        subst hi
        have := le_total f hj
        simp only [total, List.map_cons, List.sum_cons] at this ⊢
        omega
    | succ i =>
      simp only [List.getElem?_cons_succ] at hi
      cases j with
      | zero =>
        simp only [List.getElem?_cons_zero, Option.some.injEq] at hj
        subst hj
        have := le_total f hi
        simp only [total, List.map_cons, List.sum_cons] at this ⊢
        omega
      | succ j =>
        simp only [List.getElem?_cons_succ] at hj
        have := ih (fun h => hij (by rw [h])) hi hj
        simp only [total, List.map_cons, List.sum_cons] at this ⊢
        omega

theorem total_pos (f : Pc σ → Nat) {l : List (Pc σ)} (h : 0 < total f l) : ∃ (i : Nat) (pc : Pc σ), l[i]? = some pc ∧ 0 < f pc := by
  induction l with
  | nil => simp [total] at h
  | cons x l ih =>
    by_cases hx : 0 < f x
    · exact ⟨0, x, rfl, hx⟩
    · have : 0 < total f l := by
        simp only [total, List.map_cons, List.sum_cons] at h ⊢
        omega
      obtain ⟨i, pc, h1, h2⟩ := ih this
      exact ⟨i + 1, pc, h1, h2⟩

/-- Every lock is held by exactly the requests that should hold it, and never both shared and exclusively. -/
structure LocksOk (srv : Server) (c : Config σ) : Prop where
  readers : ∀ k, (c.sh.locks k).readers = total (sharedBy srv k) c.threads
  writer : ∀ k, (c.sh.locks k).writer.toNat = total (exclusiveBy srv k) c.threads
  waiting : ∀ k, (c.sh.locks k).waiting = total (waitedBy srv k) c.threads
  mutex : c.sh.mutex.toNat = total mutexBy c.threads
  exclusive : ∀ k, (c.sh.locks k).writer = true → (c.sh.locks k).readers = 0

section

variable {W : World} {srv : Server} {id : Nat} {pc pc' : Pc W.State} {s s' : Shared W.State}


theorem takeRead_readers (s : Shared σ) (k j : Nat) : ((s.takeRead k).locks j).readers = (s.locks j).readers + if j = k then 1 else 0 := by
  simp only [Shared.takeRead, Shared.setLock, updAt]; split <;> simp_all
theorem dropRead_readers (s : Shared σ) (k j : Nat) : ((s.dropRead k).locks j).readers = (s.locks j).readers - if j = k then 1 else 0 := by
  simp only [Shared.dropRead, Shared.setLock, updAt]; split <;> simp_all
theorem takeWrite_readers (s : Shared σ) (k j : Nat) : ((s.takeWrite k).locks j).readers = (s.locks j).readers := by
  simp only [Shared.takeWrite, Shared.setLock, updAt]; split <;> simp_all
theorem dropWrite_readers (s : Shared σ) (k j : Nat) : ((s.dropWrite k).locks j).readers = (s.locks j).readers := by
  simp only [Shared.dropWrite, Shared.setLock, updAt]; split <;> simp_all
theorem wait_readers (s : Shared σ) (k j : Nat) : ((s.wait k).locks j).readers = (s.locks j).readers := by
  simp only [Shared.wait, Shared.setLock, updAt]; split <;> simp_all

theorem takeRead_writer (s : Shared σ) (k j : Nat) : ((s.takeRead k).locks j).writer = (s.locks j).writer := by
  simp only [Shared.takeRead, Shared.setLock, updAt]; split <;> simp_all
theorem dropRead_writer (s : Shared σ) (k j : Nat) : ((s.dropRead k).locks j).writer = (s.locks j).writer := by
  simp only [Shared.dropRead, Shared.setLock, updAt]; split <;> simp_all
theorem takeWrite_writer (s : Shared σ) (k j : Nat) : ((s.takeWrite k).locks j).writer = if j = k then true else (s.locks j).writer := by
  simp only [Shared.takeWrite, Shared.setLock, updAt]; split <;> simp_all
theorem dropWrite_writer (s : Shared σ) (k j : Nat) : ((s.dropWrite k).locks j).writer = if j = k then false else (s.locks j).writer := by
  simp only [Shared.dropWrite, Shared.setLock, updAt]; split <;> simp_all
theorem wait_writer (s : Shared σ) (k j : Nat) : ((s.wait k).locks j).writer = (s.locks j).writer := by
  simp only [Shared.wait, Shared.setLock, updAt]; split <;> simp_all

theorem takeRead_waiting (s : Shared σ) (k j : Nat) : ((s.takeRead k).locks j).waiting = (s.locks j).waiting := by
  simp only [Shared.takeRead, Shared.setLock, updAt]; split <;> simp_all
theorem dropRead_waiting (s : Shared σ) (k j : Nat) : ((s.dropRead k).locks j).waiting = (s.locks j).waiting := by
  simp only [Shared.dropRead, Shared.setLock, updAt]; split <;> simp_all
theorem takeWrite_waiting (s : Shared σ) (k j : Nat) : ((s.takeWrite k).locks j).waiting = (s.locks j).waiting - if j = k then 1 else 0 := by
  simp only [Shared.takeWrite, Shared.setLock, updAt]; split <;> simp_all
theorem dropWrite_waiting (s : Shared σ) (k j : Nat) : ((s.dropWrite k).locks j).waiting = (s.locks j).waiting := by
  simp only [Shared.dropWrite, Shared.setLock, updAt]; split <;> simp_all
theorem wait_waiting (s : Shared σ) (k j : Nat) : ((s.wait k).locks j).waiting = (s.locks j).waiting + if j = k then 1 else 0 := by
  simp only [Shared.wait, Shared.setLock, updAt]; split <;> simp_all

theorem note_locks (s : Shared σ) (es : List (Entry σ)) : (s.note es).locks = s.locks := rfl

theorem readers_step (h : Act1 W srv id pc s pc' s') (k : Nat) (hle : sharedBy srv k pc ≤ (s.locks k).readers) :
    (s'.locks k).readers + sharedBy srv k pc = (s.locks k).readers + sharedBy srv k pc' := by
  cases h with
  | @scanEnd next i _ hi =>
    have e : sharedBy (σ := W.State) srv k (afterScan next) = 0 := by cases next <;> rfl
    rw [e]
    by_cases h0 : i = 0
    · subst h0; simp [sharedBy]
    · simp only [sharedBy, h0, if_false, dropRead_readers] at hle ⊢
      split_ifs at hle ⊢ <;> omega
  | @scanDrop next i _ =>
    by_cases h0 : i = 0
    · subst h0; cases k <;> simp [sharedBy]
    · simp only [sharedBy, h0, if_false, dropRead_readers] at hle ⊢
      split_ifs at hle ⊢ <;> omega
  | _ =>
    simp only [sharedBy, note_locks, takeRead_readers, dropRead_readers, takeWrite_readers, dropWrite_readers, wait_readers] at hle ⊢
    try (split_ifs at hle ⊢ <;> omega)

theorem writer_step (h : Act1 W srv id pc s pc' s') (k : Nat) (hle : exclusiveBy srv k pc ≤ (s.locks k).writer.toNat) :
    (s'.locks k).writer.toNat + exclusiveBy srv k pc = (s.locks k).writer.toNat + exclusiveBy srv k pc' := by
  cases h with
  | @scanEnd next i _ hi =>
    have e : exclusiveBy (σ := W.State) srv k (afterScan next) = 0 := by cases next <;> rfl
    rw [e]
    by_cases h0 : i = 0
    · subst h0; simp [exclusiveBy]
    · simp [exclusiveBy, h0, dropRead_writer]
  | @scanDrop next i _ =>
    by_cases h0 : i = 0
    · subst h0; simp [exclusiveBy]
    · simp [exclusiveBy, h0, dropRead_writer]
  | @permit a _ ho h =>
    simp only [exclusiveBy, takeWrite_writer]
    split_ifs with h1 h2 h2
    · subst h1; rw [h.1]; rfl
    · exact absurd h1.symm h2
    · exact absurd h2.symm h1
    · rfl
  | @ended a ho st r _ h =>
    simp only [exclusiveBy, dropWrite_writer] at hle ⊢
    split_ifs at hle ⊢ with h1 h2 h2
    · have := Bool.toNat_le ((s.locks k).writer)
      simp only [Bool.toNat_false]; omega
    · exact absurd h1.symm h2
    · exact absurd h2.symm h1
    · rfl
  | _ =>
    simp only [exclusiveBy, note_locks, takeRead_writer, dropRead_writer, wait_writer] at hle ⊢

theorem waiting_step (h : Act1 W srv id pc s pc' s') (k : Nat) (hle : waitedBy srv k pc ≤ (s.locks k).waiting) :
    (s'.locks k).waiting + waitedBy srv k pc = (s.locks k).waiting + waitedBy srv k pc' := by
  cases h with
  | @scanEnd next i _ hi =>
    have e : waitedBy (σ := W.State) srv k (afterScan next) = 0 := by cases next <;> rfl
    rw [e]
    by_cases h0 : i = 0
    · subst h0; simp [waitedBy]
    · simp [waitedBy, h0, dropRead_waiting]
  | @scanDrop next i _ =>
    by_cases h0 : i = 0
    · subst h0; simp [waitedBy]
    · simp [waitedBy, h0, dropRead_waiting]
  | _ =>
    simp only [waitedBy, note_locks, takeRead_waiting, dropRead_waiting, wait_waiting, takeWrite_waiting, dropWrite_waiting] at hle ⊢
    try (split_ifs at hle ⊢ <;> omega)

theorem mutex_step (h : Act1 W srv id pc s pc' s') (hle : mutexBy pc ≤ s.mutex.toNat) :
    s'.mutex.toNat + mutexBy pc = s.mutex.toNat + mutexBy pc' := by
  have hm := Bool.toNat_le s.mutex
  cases h with
  | @scanEnd next i _ hi =>
    have e : mutexBy (σ := W.State) (afterScan next) = 0 := by cases next <;> rfl
    rw [e]
    by_cases h0 : i = 0 <;> simp [mutexBy, h0, Shared.dropRead, Shared.setLock]
  | @scanDrop next i _ => by_cases h0 : i = 0 <;> simp [mutexBy, h0, Shared.dropRead, Shared.setLock]
  | lock h hp => simp [mutexBy, h]
  | _ =>
    simp only [mutexBy, Shared.note, Shared.takeRead, Shared.dropRead, Shared.takeWrite, Shared.dropWrite, Shared.wait, Shared.setLock,
      Bool.toNat_false] at hle ⊢
    try omega

theorem exclusive_step (h : Act1 W srv id pc s pc' s') (k : Nat) (hex : (s.locks k).writer = true → (s.locks k).readers = 0) :
    (s'.locks k).writer = true → (s'.locks k).readers = 0 := by
  cases h with
  | @scanEnd next i _ hi =>
    by_cases h0 : i = 0
    · simpa [h0] using hex
    · simp only [h0, if_false, dropRead_readers, dropRead_writer]; intro h; have := hex h; omega
  | @scanDrop next i _ =>
    by_cases h0 : i = 0
    · simpa [h0] using hex
    · simp only [h0, if_false, dropRead_readers, dropRead_writer]; intro h; have := hex h; omega
  | @permit a _ ho h =>
    simp only [takeWrite_readers, takeWrite_writer]
    split_ifs with h1
    · intro _; subst h1; exact h.2
    · exact hex
  | @ended a ho st r _ h =>
    simp only [dropWrite_readers, dropWrite_writer]
    split_ifs with h1
    · intro h; cases h
    · exact hex
  | @scanTake next i _ hi h =>
    simp only [takeRead_readers, takeRead_writer]
    split_ifs with h1
    · subst h1; intro h2; rw [h.1] at h2; cases h2
    · exact hex
  | @lookup a _ h =>
    simp only [takeRead_readers, takeRead_writer]
    split_ifs with h1
    · subst h1; intro h2; rw [h.1] at h2; cases h2
    · exact hex
  | @branchTake r f _ h =>
    simp only [takeRead_readers, takeRead_writer]
    split_ifs with h1
    · subst h1; intro h2; rw [h.1] at h2; cases h2
    · exact hex
  | _ =>
    simp only [note_locks, dropRead_readers, dropRead_writer, wait_readers, wait_writer]
    first
      | exact hex
      | (intro h; have := hex h; omega)

end

variable {W : World} {srv : Server}

theorem locksOk_init (repo : Str → W.State) (clock : Nat) : LocksOk srv (initial W repo clock) :=
  ⟨fun _ => rfl, fun _ => rfl, fun _ => rfl, rfl, fun _ h => by cases h⟩

theorem begin_idle (r : Request) (k : Nat) : sharedBy srv k (begin r : Pc σ) = 0 ∧ exclusiveBy srv k (begin r : Pc σ) = 0 ∧
    waitedBy srv k (begin r : Pc σ) = 0 ∧ mutexBy (begin r : Pc σ) = 0 := by
  cases r <;> simp [begin, sharedBy, exclusiveBy, waitedBy, mutexBy]

theorem total_one (f : Pc σ → Nat) (pc : Pc σ) : total f [pc] = f pc := by simp [total]

theorem locksOk_step {c c' : Config W.State} (h : LocksOk srv c) (hs : Step W srv c c') : LocksOk srv c' := by
  cases hs with
  | thread i h1 =>
    obtain ⟨pc, pc', s', hi, ha, rfl⟩ := h1
    refine ⟨fun k => ?_, fun k => ?_, fun k => ?_, ?_, fun k => ?_⟩
    · have h1 := total_set (sharedBy srv k) pc' hi
      have h2 := le_total (sharedBy srv k) hi
      have h3 := h.readers k
      have h4 := readers_step ha k (by omega)
      dsimp only; omega
    · have h1 := total_set (exclusiveBy srv k) pc' hi
      have h2 := le_total (exclusiveBy srv k) hi
      have h3 := h.writer k
      have h4 := writer_step ha k (by omega)
      dsimp only; omega
    · have h1 := total_set (waitedBy srv k) pc' hi
      have h2 := le_total (waitedBy srv k) hi
      have h3 := h.waiting k
      have h4 := waiting_step ha k (by omega)
      dsimp only; omega
    · have h1 := total_set mutexBy pc' hi
      have h2 := le_total mutexBy hi
      have h3 := h.mutex
      have h4 := mutex_step ha (by omega)
      dsimp only; omega
    · exact exclusive_step ha k (h.exclusive k)
  | arrive r =>
    refine ⟨fun k => ?_, fun k => ?_, fun k => ?_, ?_, h.exclusive⟩
    · rw [total_append, total_one, (begin_idle r k).1]; exact h.readers k
    · rw [total_append, total_one, (begin_idle r k).2.1]; exact h.writer k
    · rw [total_append, total_one, (begin_idle r k).2.2.1]; exact h.waiting k
    · rw [total_append, total_one, (begin_idle (srv := srv) r 0).2.2.2]; exact h.mutex
  | tick n => exact ⟨h.readers, h.writer, h.waiting, h.mutex, h.exclusive⟩

/-- The locks are right in every state that the server can reach. -/
theorem locksOk_reachable {c : Config W.State} (h : Reachable W srv c) : LocksOk srv c := by
  induction h with
  | init repo clock => exact locksOk_init repo clock
  | step _ hs ih => exact locksOk_step ih hs

section Exclusion

variable {c : Config σ}

theorem mutex_unique (h : LocksOk srv c) {i j : Nat} {x y : Pc σ} (hi : c.threads[i]? = some x) (hj : c.threads[j]? = some y)
    (hx : mutexBy x = 1) (hy : mutexBy y = 1) : i = j := by
  by_contra hij
  have h1 := two_le_total mutexBy hij hi hj
  have h2 := h.mutex
  have h3 := Bool.toNat_le c.sh.mutex
  omega

theorem excl_alone (h : LocksOk srv c) {i j : Nat} {x y : Pc σ} {k : Nat} (hij : i ≠ j) (hi : c.threads[i]? = some x) (hj : c.threads[j]? = some y)
    (hx : exclusiveBy srv k x = 1) : exclusiveBy srv k y = 0 ∧ sharedBy srv k y = 0 := by
  have h1 := two_le_total (exclusiveBy srv k) hij hi hj
  have h2 := h.writer k
  have h3 := Bool.toNat_le (c.sh.locks k).writer
  have h4 : (c.sh.locks k).writer = true := by
    cases hb : (c.sh.locks k).writer with
    | true => rfl
    | false => rw [hb, Bool.toNat_false] at h2; omega
  have h5 := h.exclusive k h4
  have h6 := h.readers k
  have h7 := le_total (sharedBy srv k) hj
  omega

end Exclusion

end Swc
