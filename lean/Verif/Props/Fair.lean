/-
C112: who has to wait for how long while requests keep coming.
-/
import Verif.Spec.Fair
import Verif.Props.Deadlock
import Verif.Props.Alive

namespace Swc

open Spec Prog

section

variable {W : World} {srv : Server} {g : Nat → Config W.State} {who : Nat → Option Nat}

theorem endless_step (h : Endless W srv g who) (n : Nat) : g (n + 1) = g n ∨ Step W srv (g n) (g (n + 1)) := by
  cases hw : who n with
  | some i => exact .inr (.thread i (h.own n i hw))
  | none =>
    rcases h.around n hw with e | ⟨r, e⟩ | ⟨d, e⟩
    · exact .inl e
    · rw [e]; exact .inr (.arrive r)
    · rw [e]; exact .inr (.tick d)

theorem endless_reach (h : Endless W srv g who) (n : Nat) : Reachable W srv (g n) := by
  induction n with
  | zero => exact h.start
  | succ n ih =>
    rcases endless_step h n with e | hs
    · rw [e]; exact ih
    · exact .step ih hs

/-- Whoever does not make a step stays where they are. -/
theorem endless_stay (h : Endless W srv g who) {n i : Nat} {pc : Pc W.State} (hi : (g n).threads[i]? = some pc) (hw : who n ≠ some i) :
    (g (n + 1)).threads[i]? = some pc := by
  cases hn : who n with
  | some j =>
    obtain ⟨p, p', s', h1, -, e⟩ := h.own n j hn
    have hij : j ≠ i := fun e => hw (by rw [hn, e])
    rw [e]
    simp only
    rw [List.getElem?_set_ne hij]
    exact hi
  | none =>
    rcases h.around n hn with e | ⟨r, e⟩ | ⟨d, e⟩
    · rw [e]; exact hi
    · rw [e]
      simp only
      rw [List.getElem?_append_left (List.getElem?_eq_some_iff.1 hi).1]
      exact hi
    · rw [e]; exact hi

/-- A step of a request. -/
theorem endless_own (h : Endless W srv g who) {n i : Nat} {pc : Pc W.State} (hi : (g n).threads[i]? = some pc) (hw : who n = some i) :
    ∃ pc', Act1 W srv i pc (g n).sh pc' (g (n + 1)).sh ∧ (g (n + 1)).threads = (g n).threads.set i pc' := by
  obtain ⟨p, p', s', h1, h2, e⟩ := h.own n i hw
  rw [hi] at h1
  cases h1
  rw [e]
  exact ⟨p', h2, rfl⟩

/-- Nobody disappears. -/
theorem endless_keep (h : Endless W srv g who) {n i : Nat} {pc : Pc W.State} (hi : (g n).threads[i]? = some pc) (d : Nat) :
    ∃ q, (g (n + d)).threads[i]? = some q := by
  induction d with
  | zero => exact ⟨pc, hi⟩
  | succ d ih =>
    obtain ⟨q, hq⟩ := ih
    by_cases hw : who (n + d) = some i
    · obtain ⟨q', -, e⟩ := endless_own h hq hw
      exact ⟨q', by rw [show n + (d + 1) = n + d + 1 by omega, e, List.getElem?_set_self (List.getElem?_eq_some_iff.1 hq).1]⟩
    · exact ⟨q, endless_stay h hq hw⟩

/-- In a fair run, every request comes to rest: from some time on it stays where it is, and it cannot make a step. -/
theorem endless_rests (h : Endless W srv g who) (hf : FairTo W srv g who) {n i : Nat} {pc : Pc W.State} (hi : (g n).threads[i]? = some pc) :
    ∃ N pc', n ≤ N ∧ ∀ m, N ≤ m → (g m).threads[i]? = some pc' ∧ ¬ CanStep W srv i (g m) := by
  induction pc using (moves_wf (W := W) (srv := srv)).induction generalizing n with
  | _ pc ih =>
    by_cases hex : ∃ m, n ≤ m ∧ who m = some i
    · classical
      have hm := Nat.find_spec hex
      have hmin : ∀ k, n ≤ k → k < Nat.find hex → who k ≠ some i := fun k h1 h2 h3 => Nat.find_min hex h2 ⟨h1, h3⟩
      generalize Nat.find hex = m at hm hmin
      have stay : ∀ d, n + d ≤ m → (g (n + d)).threads[i]? = some pc := by
        intro d
        induction d with
        | zero => intro _; exact hi
        | succ d ihd =>
          intro hd
          exact endless_stay h (ihd (by omega)) (hmin (n + d) (by omega) (by omega))
      have hm' : (g m).threads[i]? = some pc := by
        have := stay (m - n) (by omega)
        rwa [show n + (m - n) = m by omega] at this
      obtain ⟨pc', ha, e⟩ := endless_own h hm' hm.2
      have hnext : (g (m + 1)).threads[i]? = some pc' := by
        rw [e, List.getElem?_set_self (List.getElem?_eq_some_iff.1 hm').1]
      obtain ⟨N, q, h1, h2⟩ := ih pc' ⟨i, _, _, ha⟩ hnext
      exact ⟨N, q, by omega, h2⟩
    · push Not at hex
      have stay : ∀ d, (g (n + d)).threads[i]? = some pc := by
        intro d
        induction d with
        | zero => exact hi
        | succ d ihd => exact endless_stay h ihd (hex (n + d) (by omega))
      have : ¬ ∀ k, ∃ m, k ≤ m ∧ CanStep W srv i (g m) := fun hc => by
        obtain ⟨m, h1, h2⟩ := hf i hc n
        exact hex m h1 h2
      push Not at this
      obtain ⟨k, hk⟩ := this
      refine ⟨max n k, pc, by omega, fun m hm => ⟨?_, hk m (by omega)⟩⟩
      have := stay (m - n)
      rwa [show n + (m - n) = m by omega] at this

theorem canStep_of {c : Config W.State} {i : Nat} {pc : Pc W.State} (hi : c.threads[i]? = some pc) (h : ∃ pc' s', Act1 W srv i pc c.sh pc' s') :
    CanStep W srv i c := by
  obtain ⟨pc', s', h⟩ := h
  exact ⟨_, pc, pc', s', hi, h, rfl⟩

theorem resting_blocked (h : Endless W srv g who) {m i : Nat} {pc : Pc W.State} (hi : (g m).threads[i]? = some pc) (hn : ¬ CanStep W srv i (g m)) :
    ¬ Unblocked srv pc := fun hu => hn (canStep_of hi (unblocked_step hu ((inv_reachable (endless_reach h m)).threads i pc hi)))

/-- Whoever begins to hold a shard shared could take it shared. -/
theorem gains_canRead {i k : Nat} {pc pc' : Pc W.State} {s s' : Shared W.State} (ha : Act1 W srv i pc s pc' s') (h0 : sharedBy srv k pc = 0)
    (h1 : sharedBy srv k pc' ≠ 0) : (s.locks k).canRead srv := by
  cases ha with
  | scanTake hi h =>
    rename_i next j
    simp only [sharedBy] at h0 h1
    have : j = k := by
      by_contra hc
      simp [hc] at h1
      simp [h1] at h0
    rw [← this]; exact h
  | scanDrop =>
    rename_i next j
    simp only [sharedBy] at h0 h1
    exfalso
    by_cases hj : j = k
    · simp [hj] at h0
    · simp [hj] at h1
  | scanEnd hi =>
    rename_i next j
    cases next <;> simp [afterScan, sharedBy] at h1
  | lookup h =>
    rename_i a
    have : srv.shardOf a.repo = k := by
      by_contra hc
      simp [sharedBy, hc] at h1
    rw [← this]; exact h
  | branchTake h =>
    rename_i r f
    have : srv.shardOf r = k := by
      by_contra hc
      simp [sharedBy, hc] at h1
    rw [← this]; exact h
  | branchWork h =>
    simp only [sharedBy] at h0 h1
    exact absurd h0 h1
  | _ => simp [sharedBy] at h1

/-- Where nobody holds the mutex, nobody holds a shard exclusively or waits for it. -/
theorem free_locks {c : Config W.State} (hl : LocksOk srv c) (hm : c.sh.mutex = false) (k : Nat) :
    (c.sh.locks k).writer = false ∧ (c.sh.locks k).waiting = 0 := by
  have h0 : total mutexBy c.threads = 0 := by rw [← hl.mutex, hm]; rfl
  have none_ : ∀ {i : Nat} {pc : Pc W.State}, c.threads[i]? = some pc → mutexBy pc = 0 := by
    intro i pc hi
    have := le_total mutexBy hi
    omega
  constructor
  · cases hb : (c.sh.locks k).writer with
    | false => rfl
    | true =>
      have h1 := hl.writer k
      rw [hb, Bool.toNat_true] at h1
      obtain ⟨i, pc, hi, hp⟩ := total_pos (l := c.threads) (exclusiveBy srv k) (by rw [← h1]; decide)
      have := none_ hi
      cases pc <;> simp [exclusiveBy, mutexBy] at hp this
  · by_contra hne
    rw [hl.waiting k] at hne
    obtain ⟨i, pc, hi, hp⟩ := total_pos (l := c.threads) (waitedBy srv k) (by omega)
    have := none_ hi
    cases pc <;> simp [waitedBy, mutexBy] at hp this

/-- While one request holds the mutex and waits for a shard, nobody holds a shard exclusively, and nobody else waits for one. -/
theorem waiting_locks {c : Config W.State} (hl : LocksOk srv c) {h : Nat} {a : CompareArgs} (hh : c.threads[h]? = some (.wantShard a)) :
    (∀ k, (c.sh.locks k).writer = false) ∧ (c.sh.locks (srv.shardOf a.repo)).waiting ≠ 0 ∧
      ∀ k, k ≠ srv.shardOf a.repo → (c.sh.locks k).waiting = 0 := by
  refine ⟨fun k => ?_, ?_, fun k hk => ?_⟩
  · cases hb : (c.sh.locks k).writer with
    | false => rfl
    | true =>
      have h1 := hl.writer k
      rw [hb, Bool.toNat_true] at h1
      obtain ⟨i, pc, hi, hp⟩ := total_pos (l := c.threads) (exclusiveBy srv k) (by rw [← h1]; decide)
      cases pc with
      | running b ho st p =>
        have := mutex_unique hl hh hi rfl rfl
        subst this
        rw [hh] at hi
        cases hi
      | _ => simp [exclusiveBy] at hp
  · rw [hl.waiting]
    have := le_total (waitedBy srv (srv.shardOf a.repo)) hh
    simp [waitedBy] at this
    omega
  · by_contra hne
    rw [hl.waiting k] at hne
    obtain ⟨i, pc, hi, hp⟩ := total_pos (l := c.threads) (waitedBy srv k) (by omega)
    cases pc with
    | wantShard b =>
      have := mutex_unique hl hh hi rfl rfl
      subst this
      rw [hh] at hi
      cases hi
      simp [waitedBy, Ne.symm hk] at hp
    | _ => simp [waitedBy] at hp

/-- C112: however many requests come, the mutex of the cache becomes free again and again, if waiting writers are preferred. -/
theorem endless_free (hp : srv.writerPref = true) (h : Endless W srv g who) (hf : FairTo W srv g who) (n : Nat) : ∃ m, n ≤ m ∧ (g m).sh.mutex = false := by
  by_contra hcon
  push Not at hcon
  have hmut : ∀ m, n ≤ m → (g m).sh.mutex = true := fun m hm => by simpa using hcon m hm
  have hl : ∀ m, LocksOk srv (g m) := fun m => locksOk_reachable (endless_reach h m)
  have hone : ∀ m, n ≤ m → total mutexBy (g m).threads = 1 := fun m hm => by rw [← (hl m).mutex, hmut m hm]; rfl
  -- one request holds the mutex forever
  obtain ⟨i, pc0, hi0, hpos⟩ := total_pos (l := (g n).threads) mutexBy (by rw [hone n (Nat.le_refl _)]; decide)
  have hold : ∀ d, ∃ pc, (g (n + d)).threads[i]? = some pc ∧ 0 < mutexBy pc := by
    intro d
    induction d with
    | zero => exact ⟨pc0, hi0, hpos⟩
    | succ d ih =>
      obtain ⟨pc, h1, h2⟩ := ih
      by_cases hw : who (n + d) = some i
      · obtain ⟨pc', ha, e⟩ := endless_own h h1 hw
        refine ⟨pc', ?_, ?_⟩
        · rw [show n + (d + 1) = n + d + 1 by omega, e, List.getElem?_set_self (List.getElem?_eq_some_iff.1 h1).1]
        · have t1 := hone (n + d) (by omega)
          have t2 := hone (n + d + 1) (by omega)
          have := total_set mutexBy pc' h1
          rw [← e, t1, t2] at this
          omega
      · exact ⟨pc, endless_stay h h1 hw, h2⟩
  obtain ⟨N, pc, hN, hrest⟩ := endless_rests h hf hi0
  have hpc : ∃ a, pc = .wantShard a := by
    obtain ⟨pc', h1, h2⟩ := hold (N - n)
    rw [show n + (N - n) = N by omega, (hrest N (Nat.le_refl _)).1] at h1
    cases h1
    have hb := resting_blocked h (hrest N (Nat.le_refl _)).1 (hrest N (Nat.le_refl _)).2
    cases pc with
    | wantShard a => exact ⟨a, rfl⟩
    | check => exact absurd trivial hb
    | running => exact absurd trivial hb
    | store => exact absurd trivial hb
    | _ => simp [mutexBy] at h2
  obtain ⟨a, rfl⟩ := hpc
  have hlocks := fun m (hm : N ≤ m) => waiting_locks (hl m) (hrest m hm).1
  -- nobody begins to hold the shard
  have hno : ∀ m, N ≤ m → ∀ (j : Nat) (q q' : Pc W.State), (g m).threads[j]? = some q → sharedBy srv (srv.shardOf a.repo) q = 0 →
      (g (m + 1)).threads[j]? = some q' → sharedBy srv (srv.shardOf a.repo) q' = 0 := by
    intro m hm j q q' hq h0 hq'
    by_cases hw : who m = some j
    · obtain ⟨p', ha, e⟩ := endless_own h hq hw
      rw [e, List.getElem?_set_self (List.getElem?_eq_some_iff.1 hq).1] at hq'
      cases hq'
      by_contra hne
      exact (hlocks m hm).2.1 ((gains_canRead ha h0 hne).2 hp)
    · rw [endless_stay h hq hw] at hq'
      cases hq'
      exact h0
  have hno' : ∀ m, N ≤ m → ∀ d (j : Nat) (q q' : Pc W.State), (g m).threads[j]? = some q → sharedBy srv (srv.shardOf a.repo) q = 0 →
      (g (m + d)).threads[j]? = some q' → sharedBy srv (srv.shardOf a.repo) q' = 0 := by
    intro m hm d
    induction d with
    | zero =>
      intro j q q' hq h0 hq'
      rw [Nat.add_zero, hq] at hq'
      cases hq'
      exact h0
    | succ d ih =>
      intro j q q' hq h0 hq'
      obtain ⟨p, hp'⟩ := endless_keep h hq d
      exact hno (m + d) (by omega) j p q' hp' (ih j q p hq h0 hp') hq'
  -- whoever comes later does not hold it
  have hnew : ∀ d (j : Nat) (q : Pc W.State), (g N).threads.length ≤ j → (g (N + d)).threads[j]? = some q → sharedBy srv (srv.shardOf a.repo) q = 0 := by
    intro d
    induction d with
    | zero =>
      intro j q hj hq
      exact absurd (List.getElem?_eq_some_iff.1 hq).1 (by simpa using hj)
    | succ d ih =>
      intro j q hj hq
      by_cases hlt : j < (g (N + d)).threads.length
      · exact hno (N + d) (by omega) j _ q (List.getElem?_eq_getElem hlt) (ih j _ hj (List.getElem?_eq_getElem hlt)) hq
      · cases hw : who (N + d) with
        | some i' =>
          obtain ⟨p, p', s', -, -, e⟩ := h.own _ _ hw
          have hq2 := (List.getElem?_eq_some_iff.1 hq).1
          rw [show N + (d + 1) = N + d + 1 by omega, e] at hq2
          simp only [List.length_set] at hq2
          exact absurd hq2 hlt
        | none =>
          rcases h.around _ hw with e | ⟨r, e⟩ | ⟨t, e⟩
          · have hq2 := (List.getElem?_eq_some_iff.1 hq).1
            rw [show N + (d + 1) = N + d + 1 by omega, e] at hq2
            exact absurd hq2 hlt
          · rw [show N + (d + 1) = N + d + 1 by omega, e] at hq
            simp only at hq
            rw [List.getElem?_append_right (by omega)] at hq
            have hq2 := (List.getElem?_eq_some_iff.1 hq).1
            simp only [List.length_singleton] at hq2
            rw [show j - (g (N + d)).threads.length = 0 by omega] at hq
            cases hq
            exact (begin_idle r _).1
          · have hq2 := (List.getElem?_eq_some_iff.1 hq).1
            rw [show N + (d + 1) = N + d + 1 by omega, e] at hq2
            exact absurd hq2 hlt
  -- whoever holds it gives it back
  have hback : ∀ j, j < (g N).threads.length → ∃ M, N ≤ M ∧ ∀ q, (g M).threads[j]? = some q → sharedBy srv (srv.shardOf a.repo) q = 0 := by
    intro j hj
    obtain ⟨M, q, hM, hr⟩ := endless_rests h hf (List.getElem?_eq_getElem hj)
    refine ⟨M, hM, fun q' hq' => ?_⟩
    obtain ⟨hr1, hr2⟩ := hr M (Nat.le_refl _)
    rw [hr1] at hq'
    cases hq'
    have hb := resting_blocked h hr1 hr2
    cases q with
    | scan next k =>
      by_contra hne
      have hk : k = srv.shardOf a.repo + 1 := by
        by_contra hc
        simp [sharedBy, hc] at hne
      have hlt : k < srv.shards := by
        by_contra hc
        exact hb (by show srv.shards ≤ k; omega)
      refine hr2 (canStep_of hr1 ⟨_, _, .scanTake hlt ⟨(hlocks M hM).1 k, fun _ => (hlocks M hM).2.2 k (by omega)⟩⟩)
    | scanBoth => exact absurd trivial hb
    | looking => exact absurd trivial hb
    | branching => exact absurd trivial hb
    | _ => rfl
  have hall : ∀ L, L ≤ (g N).threads.length → ∃ M, N ≤ M ∧ ∀ j, j < L → ∀ q, (g M).threads[j]? = some q → sharedBy srv (srv.shardOf a.repo) q = 0 := by
    intro L
    induction L with
    | zero => intro _; exact ⟨N, Nat.le_refl _, fun j hj => absurd hj (Nat.not_lt_zero _)⟩
    | succ L ih =>
      intro hL
      obtain ⟨M1, h1, h2⟩ := ih (by omega)
      obtain ⟨M2, h3, h4⟩ := hback L (by omega)
      have keep : ∀ m, N ≤ m → ∀ j, j < (g N).threads.length → ∃ q, (g m).threads[j]? = some q := by
        intro m hm j hj
        have := endless_keep h (List.getElem?_eq_getElem hj) (m - N)
        rwa [show N + (m - N) = m by omega] at this
      refine ⟨max M1 M2, by omega, fun j hj q hq => ?_⟩
      by_cases hjL : j = L
      · subst hjL
        obtain ⟨q0, hq0⟩ := keep M2 h3 j (by omega)
        have := hno' M2 h3 (max M1 M2 - M2) j q0 q hq0 (h4 q0 hq0)
        rw [show M2 + (max M1 M2 - M2) = max M1 M2 by omega] at this
        exact this hq
      · obtain ⟨q0, hq0⟩ := keep M1 h1 j (by omega)
        have := hno' M1 h1 (max M1 M2 - M1) j q0 q hq0 (h2 j (by omega) q0 hq0)
        rw [show M1 + (max M1 M2 - M1) = max M1 M2 by omega] at this
        exact this hq
  obtain ⟨M, hM, hzero⟩ := hall _ (Nat.le_refl _)
  have hr0 : ((g M).sh.locks (srv.shardOf a.repo)).readers = 0 := by
    rw [(hl M).readers]
    by_contra hne
    obtain ⟨j, q, hq, hpos⟩ := total_pos (l := (g M).threads) (sharedBy srv (srv.shardOf a.repo)) (by omega)
    by_cases hj : j < (g N).threads.length
    · have := hzero j hj q hq
      omega
    · have := hnew (M - N) j q (by omega)
      rw [show N + (M - N) = M by omega] at this
      have := this hq
      omega
  exact (hrest M hM).2 (canStep_of (hrest M hM).1 ⟨_, _, .permit ⟨fun l => l, fun _ => List.Perm.refl _⟩ ⟨(hlocks M hM).1 _, hr0⟩⟩)

/-- C112: if waiting writers are preferred and nobody is passed over forever, every request is finished sooner or later, however many others keep coming. -/
theorem C112_served (hp : srv.writerPref = true) (h : Endless W srv g who) (hf : FairTo W srv g who) {n i : Nat} {pc : Pc W.State}
    (hi : (g n).threads[i]? = some pc) : ∃ N, n ≤ N ∧ ∀ m, N ≤ m → (g m).threads[i]? = some .finished := by
  obtain ⟨N, q, hN, hr⟩ := endless_rests h hf hi
  obtain ⟨m, hm, hmx⟩ := endless_free hp h hf N
  have hl := locksOk_reachable (endless_reach h m)
  have hfree := free_locks hl hmx
  obtain ⟨h1, h2⟩ := hr m hm
  have hb := resting_blocked h h1 h2
  suffices q = .finished by
    subst this
    exact ⟨N, hN, fun m hm => (hr m hm).1⟩
  cases q with
  | scan next k =>
    have hlt : k < srv.shards := by
      by_contra hc
      exact hb (by show srv.shards ≤ k; omega)
    exact absurd (canStep_of h1 ⟨_, _, .scanTake hlt ⟨(hfree _).1, fun _ => (hfree _).2⟩⟩) h2
  | lookup a => exact absurd (canStep_of h1 ⟨_, _, .lookup ⟨(hfree _).1, fun _ => (hfree _).2⟩⟩) h2
  | wantMutex a =>
    cases hpo : (g m).sh.poisoned with
    | false => exact absurd (canStep_of h1 ⟨_, _, .lock hmx hpo⟩) h2
    | true => exact absurd (canStep_of h1 ⟨_, _, .lockPoisoned hmx hpo⟩) h2
  | branchWant r f => exact absurd (canStep_of h1 ⟨_, _, .branchTake ⟨(hfree _).1, fun _ => (hfree _).2⟩⟩) h2
  | wantShard a =>
    have := le_total mutexBy h1
    rw [← hl.mutex, hmx] at this
    simp [mutexBy] at this
  | finished => rfl
  | _ => exact absurd trivial hb

/-! ### The site -/

theorem endless_of_site {s : Site} {g : Nat → SiteState W.State} (h : EndlessSite W s g who) : Endless W s.srv (fun n => (g n).conf) who where
  start := (sound h.start).reach
  own n i hw := (h.own n i hw).1
  around n hw := by
    rcases h.around n hw with e | ⟨r, resp, -, e⟩ | ⟨r, req, -, e⟩ | ⟨d, e⟩
    · exact .inl (by rw [e])
    · exact .inl (by rw [e])
    · exact .inr (.inl ⟨req, by rw [e]⟩)
    · exact .inr (.inr ⟨d, by rw [e]⟩)

theorem site_step {s : Site} {g : Nat → SiteState W.State} (h : EndlessSite W s g who) (n : Nat) : g (n + 1) = g n ∨ s.Step W (g n) (g (n + 1)) := by
  cases hw : who n with
  | some i =>
    obtain ⟨h1, h2⟩ := h.own n i hw
    have := Site.Step.thread (W := W) (s := s) (st := g n) i h1
    rw [← h2] at this
    exact .inr this
  | none =>
    rcases h.around n hw with e | ⟨r, resp, hr, e⟩ | ⟨r, req, hr, e⟩ | ⟨d, e⟩
    · exact .inl e
    · rw [e]; exact .inr (.now r hr)
    · rw [e]; exact .inr (.later r hr)
    · rw [e]; exact .inr (.tick d)

theorem site_ahead {s : Site} {g : Nat → SiteState W.State} (h : EndlessSite W s g who) (n d : Nat) : Ahead W s (g n) (g (n + d)) := by
  induction d with
  | zero => exact .refl
  | succ d ih =>
    rcases site_step h (n + d) with e | hs
    · rw [show n + (d + 1) = n + d + 1 by omega, e]; exact ih
    · exact .step ih hs

/-- C112: if waiting writers are preferred and nobody is passed over forever, then every request is answered sooner or later, or its handler panics,
however many others keep coming (release builds). -/
theorem C112_settled {s : Site} (hr : s.srv.build = .release) (hw : s.srv.writerPref = true) {g : Nat → SiteState W.State} (h : EndlessSite W s g who)
    (hf : FairTo W s.srv (fun n => (g n).conf) who) {n k : Nat} (hk : k < (g n).inbox.length) :
    ∃ N, n ≤ N ∧ ((∃ resp, s.Replied (g N) k resp) ∨ ∃ r id, (g N).inbox[k]? = some (r, .inr id) ∧ Entry.died id ∈ (g N).conf.sh.log) := by
  have hreach : ∀ m, s.Reachable W (g m) := fun m => by
    have := reachable_ahead h.start (site_ahead h 0 m)
    rwa [Nat.zero_add] at this
  obtain ⟨N, hN, hfin⟩ : ∃ N, n ≤ N ∧ ∀ r id, (g n).inbox[k]? = some (r, .inr id) → (g N).conf.threads[id]? = some .finished := by
    rcases hx : (g n).inbox[k]? with _ | ⟨r, resp | id⟩
    · exact ⟨n, Nat.le_refl _, fun _ _ h => nomatch h⟩
    · exact ⟨n, Nat.le_refl _, fun _ _ h => nomatch h⟩
    · obtain ⟨req, pc, -, h2, -⟩ := (sound (hreach n)).known k r _ hx
      obtain ⟨N, h3, h4⟩ := C112_served hw (endless_of_site h) hf h2
      exact ⟨N, h3, fun r' id' e => by cases e; exact h4 N (Nat.le_refl _)⟩
  refine ⟨N, hN, ?_⟩
  have hin : ∃ l, (g N).inbox = (g n).inbox ++ l := by
    have := inbox_ahead (site_ahead h n (N - n))
    rwa [show n + (N - n) = N by omega] at this
  obtain ⟨l, hl⟩ := hin
  rcases C89_done (hreach N) (k := k) (fun r id hx => hfin r id (by rw [hl, List.getElem?_append_left hk] at hx; exact hx))
    (by rw [hl, List.length_append]; omega) with h' | h' | ⟨r, id, a, diff, cached, t, org, h1, h2, h3, h4⟩
  · exact .inl h'
  · exact .inr h'
  · rw [hr] at h4
    exact absurd (C90_page (sound (hreach N)).reach h2 _ _ _ _) h4

/-- C112: in a peaceful world every request is answered sooner or later, however many others keep coming. -/
theorem C112_answered {s : Site} (hr : s.srv.build = .release) (hp : Peaceful W s.srv.env.syn) (hw : s.srv.writerPref = true)
    {g : Nat → SiteState W.State} (h : EndlessSite W s g who) (hf : FairTo W s.srv (fun n => (g n).conf) who) {n k : Nat}
    (hk : k < (g n).inbox.length) : ∃ N, n ≤ N ∧ ∃ resp, s.Replied (g N) k resp := by
  obtain ⟨N, hN, h1 | ⟨r, id, -, h2⟩⟩ := C112_settled hr hw h hf hk
  · exact ⟨N, hN, h1⟩
  · exact absurd h2 ((C90_alive hr hp (endless_reach (endless_of_site h) N)).2 id)

/-! ### Such runs exist -/

theorem finished_stuck {c : Config W.State} {i : Nat} (hi : c.threads[i]? = some .finished) : ¬ CanStep W srv i c := by
  rintro ⟨c', pc, pc', s', h1, h2, -⟩
  rw [hi] at h1
  cases h1
  cases h2

theorem missing_stuck {c : Config W.State} {i : Nat} (hi : c.threads[i]? = none) : ¬ CanStep W srv i c := by
  rintro ⟨c', pc, pc', s', h1, -, -⟩
  rw [hi] at h1
  cases h1

theorem endless_finished (h : Endless W srv g who) {n i : Nat} (hi : (g n).threads[i]? = some .finished) (d : Nat) :
    (g (n + d)).threads[i]? = some .finished := by
  induction d with
  | zero => exact hi
  | succ d ih =>
    refine endless_stay h ih fun hw => ?_
    obtain ⟨pc', ha, -⟩ := endless_own h ih hw
    cases ha

/-- A run in which every request is finished at some time, or never able to make a step, is fair. -/
theorem fair_of (h : Endless W srv g who)
    (hd : ∀ n i pc, (g n).threads[i]? = some pc → (∀ m, n ≤ m → ¬ CanStep W srv i (g m)) ∨ ∃ m, n ≤ m ∧ (g m).threads[i]? = some .finished) :
    FairTo W srv g who := by
  intro i hi
  exfalso
  obtain ⟨n, -, hn⟩ := hi 0
  have hex : ∃ pc, (g n).threads[i]? = some pc := by
    obtain ⟨c', pc, pc', s', h1, -, -⟩ := hn
    exact ⟨pc, h1⟩
  obtain ⟨pc, hpc⟩ := hex
  rcases hd n i pc hpc with hs | ⟨m, hm, hfin⟩
  · exact hs n (Nat.le_refl _) hn
  · obtain ⟨m', hm', hc⟩ := hi m
    have := endless_finished h hfin (m' - m)
    rw [show m + (m' - m) = m' by omega] at this
    exact finished_stuck this hc

/-- C112: from every state that the server can reach there is a fair endless run in which requests keep coming: whichever requests `arriving` gives. -/
theorem C112_runs {c : Config W.State} (hR : Reachable W srv c) (arriving : Config W.State → Request) : ∃ g who, g 0 = c ∧ Endless W srv g who ∧
    FairTo W srv g who ∧ ∀ n, ∃ m, n ≤ m ∧ g (m + 1) = ⟨(g m).threads ++ [begin (arriving (g m))], (g m).sh⟩ := by
  classical
  have next : ∀ x : { x : Config W.State // Reachable W srv x }, ∃ w : Option Nat, ∃ y : { y : Config W.State // Reachable W srv y },
      (AllDone x.1 → w = none ∧ y.1 = ⟨x.1.threads ++ [begin (arriving x.1)], x.1.sh⟩) ∧ (¬ AllDone x.1 → ∃ i, w = some i ∧ ThreadStep W srv i x.1 y.1) := by
    intro x
    by_cases hd : AllDone x.1
    · exact ⟨none, ⟨_, .step x.2 (.arrive _)⟩, fun _ => ⟨rfl, rfl⟩, fun h => absurd hd h⟩
    · obtain ⟨i, c', hi⟩ := C56_progress x.2 hd
      exact ⟨some i, ⟨c', .step x.2 (.thread i hi)⟩, fun h => absurd h hd, fun _ => ⟨i, rfl, hi⟩⟩
  choose w f hf using next
  let g : Nat → { x : Config W.State // Reachable W srv x } := fun n => n.rec ⟨c, hR⟩ fun _ x => f x
  have hg : ∀ n, g (n + 1) = f (g n) := fun _ => rfl
  have hE : Endless W srv (fun n => (g n).1) (fun n => w (g n)) := by
    refine ⟨hR, fun n i hw => ?_, fun n hw => ?_⟩
    · by_cases hd : AllDone (g n).1
      · rw [((hf _).1 hd).1] at hw
        cases hw
      · obtain ⟨j, h1, h2⟩ := (hf _).2 hd
        rw [h1] at hw
        cases hw
        exact h2
    · by_cases hd : AllDone (g n).1
      · exact .inr (.inl ⟨_, ((hf _).1 hd).2⟩)
      · obtain ⟨j, h1, h2⟩ := (hf _).2 hd
        rw [h1] at hw
        cases hw
  have done : ∀ n, ∃ m, n ≤ m ∧ AllDone (g m).1 := by
    intro n
    by_contra hno
    push Not at hno
    refine C56_no_infinite_run (W := W) (srv := srv) ⟨fun k => (g (n + k)).1, fun k => ?_⟩
    obtain ⟨j, h1, h2⟩ := (hf _).2 (hno (n + k) (by omega))
    exact ⟨0, j, h2⟩
  refine ⟨fun n => (g n).1, fun n => w (g n), rfl, hE, fair_of hE fun n i pc hi => ?_, fun n => ?_⟩
  · obtain ⟨m, hm, hd⟩ := done n
    refine .inr ⟨m, hm, ?_⟩
    obtain ⟨q, hq⟩ := endless_keep hE hi (m - n)
    rw [show n + (m - n) = m by omega] at hq
    have hq : (g m).1.threads[i]? = some q := hq
    show (g m).1.threads[i]? = _
    rw [hq, hd i q hq]
  · obtain ⟨m, hm, hd⟩ := done n
    exact ⟨m, hm, ((hf _).1 hd).2⟩

/-- C112: from every state that the site can reach there is a fair endless run in which requests keep coming: whichever requests `arriving` gives. -/
theorem C112_site_runs {s : Site} {st : SiteState W.State} (hR : s.Reachable W st) (arriving : SiteState W.State → HttpRequest) :
    ∃ g who, g 0 = st ∧ EndlessSite W s g who ∧ FairTo W s.srv (fun n => (g n).conf) who ∧
      ∀ n, ∃ m, n ≤ m ∧ ∃ x, (g (m + 1)).inbox = (g m).inbox ++ [(arriving (g m), x)] := by
  classical
  have next : ∀ x : { x : SiteState W.State // s.Reachable W x }, ∃ w : Option Nat, ∃ y : { y : SiteState W.State // s.Reachable W y },
      (AllDone x.1.conf → w = none ∧ (∃ a, y.1.inbox = x.1.inbox ++ [(arriving x.1, a)]) ∧
        ((∃ r resp, s.accept r = .answer resp ∧ y.1 = ⟨x.1.conf, x.1.inbox ++ [(r, .inl resp)]⟩) ∨
        ∃ r req, s.accept r = .run req ∧ y.1 = ⟨⟨x.1.conf.threads ++ [begin req], x.1.conf.sh⟩, x.1.inbox ++ [(r, .inr x.1.conf.threads.length)]⟩)) ∧
      (¬ AllDone x.1.conf → ∃ i, w = some i ∧ ThreadStep W s.srv i x.1.conf y.1.conf ∧ y.1.inbox = x.1.inbox) := by
    intro x
    by_cases hd : AllDone x.1.conf
    · cases ha : s.accept (arriving x.1) with
      | answer resp => exact ⟨none, ⟨_, .step x.2 (.now _ ha)⟩, fun _ => ⟨rfl, ⟨_, rfl⟩, .inl ⟨_, _, ha, rfl⟩⟩, fun h => absurd hd h⟩
      | run req => exact ⟨none, ⟨_, .step x.2 (.later _ ha)⟩, fun _ => ⟨rfl, ⟨_, rfl⟩, .inr ⟨_, _, ha, rfl⟩⟩, fun h => absurd hd h⟩
    · obtain ⟨i, c', hi⟩ := C56_progress (sound x.2).reach hd
      exact ⟨some i, ⟨⟨c', x.1.inbox⟩, .step x.2 (.thread i hi)⟩, fun h => absurd h hd, fun _ => ⟨i, rfl, hi, rfl⟩⟩
  choose w f hf using next
  let g : Nat → { x : SiteState W.State // s.Reachable W x } := fun n => n.rec ⟨st, hR⟩ fun _ x => f x
  have hE : EndlessSite W s (fun n => (g n).1) (fun n => w (g n)) := by
    refine ⟨hR, fun n i hw => ?_, fun n hw => ?_⟩
    · by_cases hd : AllDone (g n).1.conf
      · rw [((hf _).1 hd).1] at hw
        cases hw
      · obtain ⟨j, h1, h2⟩ := (hf _).2 hd
        rw [h1] at hw
        cases hw
        exact h2
    · by_cases hd : AllDone (g n).1.conf
      · rcases ((hf _).1 hd).2.2 with h | h
        · exact .inr (.inl h)
        · exact .inr (.inr (.inl h))
      · obtain ⟨j, h1, h2⟩ := (hf _).2 hd
        rw [h1] at hw
        cases hw
  have done : ∀ n, ∃ m, n ≤ m ∧ AllDone (g m).1.conf := by
    intro n
    by_contra hno
    push Not at hno
    refine C56_no_infinite_run (W := W) (srv := s.srv) ⟨fun k => (g (n + k)).1.conf, fun k => ?_⟩
    obtain ⟨j, h1, h2, -⟩ := (hf _).2 (hno (n + k) (by omega))
    exact ⟨0, j, h2⟩
  have hE' := endless_of_site hE
  refine ⟨fun n => (g n).1, fun n => w (g n), rfl, hE, fair_of hE' fun n i pc hi => ?_, fun n => ?_⟩
  · obtain ⟨m, hm, hd⟩ := done n
    refine .inr ⟨m, hm, ?_⟩
    obtain ⟨q, hq⟩ := endless_keep hE' hi (m - n)
    rw [show n + (m - n) = m by omega] at hq
    show (g m).1.conf.threads[i]? = _
    have hq : (g m).1.conf.threads[i]? = some q := hq
    rw [hq, hd i q hq]
  · obtain ⟨m, hm, hd⟩ := done n
    exact ⟨m, hm, ((hf _).1 hd).2.1⟩

/-! ### Starvation -/

/-- The stages of a run in which a comparison waits for its shard forever because two listings in it always overlap; `k` listings are over. -/
inductive Stage
  /-- One listing is being made. -/
  | one (k : Nat) (p : Prog (List (Str × Str)))
  /-- Another request for a listing has come. -/
  | wanting (k : Nat) (p : Prog (List (Str × Str)))
  /-- Two listings are being made. -/
  | two (k : Nat) (p q : Prog (List (Str × Str)))

/-- The requests in such a stage. -/
def Stage.threads {σ : Type} (a : CompareArgs) (r : Str) (f : Bool) : Stage → List (Pc σ)
  | .one k p => .wantShard a :: (List.replicate k .finished ++ [.branching r p])
  | .wanting k p => .wantShard a :: (List.replicate k .finished ++ [.branching r p, .branchWant r f])
  | .two k p q => .wantShard a :: (List.replicate k .finished ++ [.branching r p, .branching r q])

/-- How one stage follows another. -/
inductive Stage.Next (W : World) (srv : Server) (a : CompareArgs) (r : Str) (f : Bool) :
    Stage × Config W.State → Option Nat → Stage × Config W.State → Prop
  | come {k p c} : Next W srv a r f (.one k p, c) none (.wanting k p, ⟨c.threads ++ [begin (.branches r f)], c.sh⟩)
  | take {k p q c c'} (h : ThreadStep W srv (k + 2) c c') : Next W srv a r f (.wanting k p, c) (some (k + 2)) (.two k p q, c')
  | work {k p p' q c c'} (h : ThreadStep W srv (k + 1) c c') (hm : Moves W srv (.branching r p') (.branching r p)) :
    Next W srv a r f (.two k p q, c) (some (k + 1)) (.two k p' q, c')
  | over {k p q c c'} (h : ThreadStep W srv (k + 1) c c') : Next W srv a r f (.two k p q, c) (some (k + 1)) (.one (k + 1) q, c')

theorem stage_next (hw : srv.writerPref = false) {a : CompareArgs} {r : Str} {f : Bool}
    (x : Stage) (c : Config W.State) (hR : Reachable W srv c) (hc : c.threads = x.threads a r f) :
    ∃ w y c', Stage.Next W srv a r f (x, c) w (y, c') ∧ Reachable W srv c' ∧ c'.threads = y.threads a r f := by
  have hl := locksOk_reachable hR
  cases x with
  | one k p =>
    refine ⟨_, _, _, .come, .step hR (.arrive _), ?_⟩
    simp [hc, Stage.threads, begin]
  | wanting k p =>
    have h0 : c.threads[0]? = some (.wantShard a) := by rw [hc]; rfl
    have hi : c.threads[k + 2]? = some (.branchWant r f) := by
      rw [hc]
      simp [Stage.threads]
    have hact : Act1 W srv (k + 2) (.branchWant r f) c.sh (.branching r (branchesP srv r f)) (c.sh.takeRead (srv.shardOf r)) :=
      .branchTake ⟨(waiting_locks hl h0).1 _, fun h => by rw [hw] at h; cases h⟩
    have hs : ThreadStep W srv (k + 2) c ⟨c.threads.set (k + 2) (.branching r (branchesP srv r f)), c.sh.takeRead (srv.shardOf r)⟩ :=
      ⟨_, _, _, hi, hact, rfl⟩
    refine ⟨_, .two k p (branchesP srv r f), _, .take hs, .step hR (.thread _ hs), ?_⟩
    simp [hc, Stage.threads]
  | two k p q =>
    have hi : c.threads[k + 1]? = some (.branching r p) := by
      rw [hc]
      simp [Stage.threads]
    obtain ⟨pc', s', hact⟩ := unblocked_step (id := k + 1) (show Unblocked srv (Pc.branching r p) from trivial) ((inv_reachable hR).threads _ _ hi)
    have hs : ThreadStep W srv (k + 1) c ⟨c.threads.set (k + 1) pc', s'⟩ := ⟨_, _, _, hi, hact, rfl⟩
    have fin : pc' = .finished → ∃ w y c', Stage.Next W srv a r f (.two k p q, c) w (y, c') ∧ Reachable W srv c' ∧ c'.threads = y.threads a r f := by
      rintro rfl
      refine ⟨_, _, _, .over hs, .step hR (.thread _ hs), ?_⟩
      simp [hc, Stage.threads, List.replicate_succ']
    cases id hact with
    | branchWork h =>
      refine ⟨_, _, _, .work hs ⟨_, _, _, hact⟩, .step hR (.thread _ hs), ?_⟩
      simp [hc, Stage.threads]
    | branchOk => exact fin rfl
    | branchErr => exact fin rfl
    | branchPanic => exact fin rfl

/-- The comparison is not let in. -/
theorem stage_stuck {a : CompareArgs} {r : Str} {f : Bool} (hs : srv.shardOf r = srv.shardOf a.repo) {x : Stage} {c : Config W.State}
    (hR : Reachable W srv c) (hc : c.threads = x.threads a r f) : ¬ CanStep W srv 0 c := by
  rintro ⟨c', pc, pc', s', h1, h2, -⟩
  have hl := locksOk_reachable hR
  have h0 : c.threads[0]? = some (.wantShard a) := by rw [hc]; cases x <;> rfl
  rw [h0] at h1
  cases h1
  cases h2 with
  | permit ho h =>
    have hb : ∃ (i : Nat) (p : Prog (List (Str × Str))), c.threads[i]? = some (Pc.branching r p) := by
      rw [hc]
      cases x with
      | one k p => exact ⟨k + 1, p, by simp [Stage.threads]⟩
      | wanting k p => exact ⟨k + 1, p, by simp [Stage.threads]⟩
      | two k p q => exact ⟨k + 1, p, by simp [Stage.threads]⟩
    obtain ⟨i, p, hi⟩ := hb
    have := le_total (sharedBy srv (srv.shardOf a.repo)) hi
    rw [← hl.readers, h.2] at this
    simp [sharedBy, hs] at this

/-- A comparison waits for its shard while one listing is being made. -/
theorem stage_start (hw : srv.writerPref = false) {a : CompareArgs} (ha : srv.repos a.repo ≠ none) (r : Str) (f : Bool) (repo : Str → W.State) (clock : Nat) :
    ∃ c : Config W.State, Reachable W srv c ∧ c.threads = (Stage.one 0 (branchesP srv r f)).threads a r f := by
  have h0 : Reachable W srv (initial W repo clock) := .init _ _
  obtain ⟨s1, h1, e1⟩ := run_to_check (srv := srv) (a := a) h0 (fun pc hp => by cases hp) rfl ha
  have h1 := reachable_later h0 (later_trans (arrived _ _) h1)
  have h2 : Reachable W srv ⟨[.check a, .branchWant r f], s1⟩ := .step h1 (.arrive (.branches r f))
  have hl := locksOk_reachable h2
  have hcan : (s1.locks (srv.shardOf r)).canRead srv := by
    refine ⟨?_, fun h => by rw [hw] at h; cases h⟩
    have := hl.writer (srv.shardOf r)
    simp [total, exclusiveBy] at this
    exact this
  have h3 : Reachable W srv ⟨[.check a, .branching r (branchesP srv r f)], s1.takeRead (srv.shardOf r)⟩ :=
    .step h2 (.thread 1 ⟨_, _, _, rfl, .branchTake hcan, rfl⟩)
  have hcache : cacheGet (s1.takeRead (srv.shardOf r)).cache a = none := by
    show cacheGet s1.cache a = none
    rw [e1.1]
    rfl
  exact ⟨_, .step h3 (.thread 0 ⟨_, _, _, rfl, .miss hcache, rfl⟩), rfl⟩

/-- C112 (finding): if waiting writers are not preferred, a comparison can wait forever although nobody is ever passed over and all other requests
are finished: it is enough that listings of branches in the same shard overlap. -/
theorem C112_starved (hw : srv.writerPref = false) {a : CompareArgs} (ha : srv.repos a.repo ≠ none) {r : Str} (hs : srv.shardOf r = srv.shardOf a.repo)
    (f : Bool) (repo : Str → W.State) (clock : Nat) : ∃ g who, Endless W srv g who ∧ FairTo W srv g who ∧
      (∀ n, (g n).threads[0]? = some (.wantShard a) ∧ (g n).sh.mutex = true) ∧
      (∀ L, ∃ n, L ≤ (g n).threads.length) ∧
      ∀ n i pc, i ≠ 0 → (g n).threads[i]? = some pc → ∃ m, n ≤ m ∧ (g m).threads[i]? = some .finished := by
  classical
  obtain ⟨c0, hR0, hc0⟩ := stage_start hw ha r f repo clock
  let S := { x : Stage × Config W.State // Reachable W srv x.2 ∧ x.2.threads = x.1.threads a r f }
  have next : ∀ x : S, ∃ w : Option Nat, ∃ y : S, Stage.Next W srv a r f x.1 w y.1 := by
    rintro ⟨⟨x, c⟩, hR, hc⟩
    obtain ⟨w, y, c', h1, h2, h3⟩ := stage_next hw x c hR hc
    exact ⟨w, ⟨(y, c'), h2, h3⟩, h1⟩
  choose w nx hnx using next
  let s : Nat → S := fun n => n.rec ⟨(_, c0), hR0, hc0⟩ fun _ x => nx x
  have hstep : ∀ n, Stage.Next W srv a r f (s n).1 (w (s n)) (s (n + 1)).1 := fun n => hnx (s n)
  have hE : Endless W srv (fun n => (s n).1.2) (fun n => w (s n)) := by
    refine ⟨hR0, fun n i hi => ?_, fun n hn => ?_⟩
    · have := hstep n
      rw [hi] at this
      generalize (s n).1 = x at this ⊢
      generalize (s (n + 1)).1 = y at this ⊢
      cases this <;> assumption
    · have := hstep n
      rw [hn] at this
      generalize (s n).1 = x at this ⊢
      generalize (s (n + 1)).1 = y at this ⊢
      cases this
      exact .inr (.inl ⟨_, rfl⟩)
  -- how many listings are over
  let over : Stage → Nat := fun x => match x with
    | .one k _ => k
    | .wanting k _ => k
    | .two k _ _ => k
  have mono : ∀ n, over (s n).1.1 ≤ over (s (n + 1)).1.1 := by
    intro n
    have := hstep n
    generalize w (s n) = ww at this
    generalize (s n).1 = x at this ⊢
    generalize (s (n + 1)).1 = y at this ⊢
    cases this <;> simp [over]
  have mono' : ∀ n d, over (s n).1.1 ≤ over (s (n + d)).1.1 := by
    intro n d
    induction d with
    | zero => exact Nat.le_refl _
    | succ d ih => exact Nat.le_trans ih (mono (n + d))
  have two : ∀ pc : Pc W.State, ∀ n k p q, pc = .branching r p → (s n).1.1 = .two k p q → ∃ m, n < m ∧ over (s m).1.1 = k + 1 := by
    intro pc
    induction pc using (moves_wf (W := W) (srv := srv)).induction with
    | _ pc ih =>
      rintro n k p q rfl hx
      have := hstep n
      generalize w (s n) = ww at this
      generalize hxx : (s n).1 = x at this hx
      generalize hyy : (s (n + 1)).1 = y at this
      cases this with
      | come => cases hx
      | take => cases hx
      | work h hm =>
        cases hx
        obtain ⟨m, h1, h2⟩ := ih _ hm (n + 1) _ _ _ rfl (by rw [hyy])
        exact ⟨m, by omega, h2⟩
      | over h =>
        cases hx
        exact ⟨n + 1, by omega, by rw [hyy]⟩
  have grows : ∀ n, ∃ m, n < m ∧ over (s n).1.1 < over (s m).1.1 := by
    have h2 : ∀ n k p q, (s n).1.1 = .two k p q → ∃ m, n < m ∧ over (s n).1.1 < over (s m).1.1 := by
      intro n k p q hx
      obtain ⟨m, h1, h2⟩ := two _ n k p q rfl hx
      exact ⟨m, h1, by rw [h2, hx]; exact Nat.lt_succ_self k⟩
    have h1 : ∀ n k p, (s n).1.1 = .wanting k p → ∃ m, n < m ∧ over (s n).1.1 < over (s m).1.1 := by
      intro n k p hx
      have := hstep n
      generalize w (s n) = ww at this
      have hm := mono n
      generalize hxx : (s n).1 = x at this hx hm ⊢
      generalize hyy : (s (n + 1)).1 = y at this hm
      cases this with
      | come => cases hx
      | work => cases hx
      | over => cases hx
      | take h =>
        obtain ⟨m, h3, h4⟩ := h2 (n + 1) _ _ _ (by rw [hyy])
        rw [hyy] at h4
        exact ⟨m, by omega, by omega⟩
    intro n
    cases hx : (s n).1.1 with
    | two k p q => rw [← hx]; exact h2 n k p q hx
    | wanting k p => rw [← hx]; exact h1 n k p hx
    | one k p =>
      rw [← hx]
      have := hstep n
      generalize w (s n) = ww at this
      have hm := mono n
      generalize hxx : (s n).1 = x at this hx hm ⊢
      generalize hyy : (s (n + 1)).1 = y at this hm
      cases this with
      | come =>
        obtain ⟨m, h3, h4⟩ := h1 (n + 1) _ _ (by rw [hyy])
        rw [hyy] at h4
        exact ⟨m, by omega, by omega⟩
      | take => cases hx
      | work => cases hx
      | over => cases hx
  have large : ∀ L n, ∃ m, n ≤ m ∧ L ≤ over (s m).1.1 := by
    intro L n
    induction L with
    | zero => exact ⟨n, Nat.le_refl _, Nat.zero_le _⟩
    | succ L ih =>
      obtain ⟨m, h1, h2⟩ := ih
      obtain ⟨m', h3, h4⟩ := grows m
      exact ⟨m', by omega, by omega⟩
  have fin : ∀ n i, i ≠ 0 → i ≤ over (s n).1.1 → (s n).1.2.threads[i]? = some .finished := by
    intro n i h0 hi
    rw [(s n).2.2]
    generalize (s n).1.1 = x at hi
    obtain ⟨j, rfl⟩ := Nat.exists_eq_succ_of_ne_zero h0
    cases x <;> (simp only [over] at hi; simp only [Stage.threads, List.getElem?_cons_succ]; rw [List.getElem?_append_left (by simp; omega), List.getElem?_replicate, if_pos (by omega)])
  have ends : ∀ n i pc, i ≠ 0 → (s n).1.2.threads[i]? = some pc → ∃ m, n ≤ m ∧ (s m).1.2.threads[i]? = some .finished := by
    intro n i pc h0 _
    obtain ⟨m, h1, h2⟩ := large i n
    exact ⟨m, h1, fin m i h0 h2⟩
  refine ⟨fun n => (s n).1.2, fun n => w (s n), hE, fair_of hE fun n i pc hi => ?_, fun n => ?_, fun L => ?_, ends⟩
  · by_cases h0 : i = 0
    · subst h0
      exact .inl fun m _ => stage_stuck hs (s m).2.1 (s m).2.2
    · exact .inr (ends n i pc h0 hi)
  · have h0 : (s n).1.2.threads[0]? = some (.wantShard a) := by
      rw [(s n).2.2]
      cases (s n).1.1 <;> rfl
    refine ⟨h0, ?_⟩
    have h1 := le_total mutexBy h0
    rw [← (locksOk_reachable (s n).2.1).mutex] at h1
    cases hm : (s n).1.2.sh.mutex with
    | true => rfl
    | false => rw [hm] at h1; simp [mutexBy] at h1
  · obtain ⟨m, -, h2⟩ := large L 0
    refine ⟨m, ?_⟩
    show L ≤ (s m).1.2.threads.length
    rw [(s m).2.2]
    generalize (s m).1.1 = x at h2
    cases x <;> (simp only [over] at h2; simp [Stage.threads]; omega)

/-- C112 (finding): while it waits, it holds the mutex of the cache, so no comparison that has not got to the cache yet can get there. -/
theorem C112_starved_all {c : Config W.State} (hR : Reachable W srv c) {i j : Nat} {a b : CompareArgs} (hi : c.threads[i]? = some (.wantShard a))
    (hj : c.threads[j]? = some (.wantMutex b)) : ¬ CanStep W srv j c := by
  rintro ⟨c', pc, pc', s', h1, h2, -⟩
  rw [hj] at h1
  cases h1
  have h3 := le_total mutexBy hi
  rw [← (locksOk_reachable hR).mutex] at h3
  cases h2 with
  | lock h => rw [h] at h3; simp [mutexBy] at h3
  | lockPoisoned h => rw [h] at h3; simp [mutexBy] at h3

/-! ### Concrete cases -/

/-- A fair run of a concrete server in which comparisons and listings keep coming: all of them are finished. -/
example : ∃ g who, Endless exWorld (exServer exEnv) g who ∧ FairTo exWorld (exServer exEnv) g who ∧
    (∀ n, ∃ m, n ≤ m ∧ (g (m + 1)).threads.length = (g m).threads.length + 1) ∧
    ∀ (n i : Nat) pc, (g n).threads[i]? = some pc → ∃ N, n ≤ N ∧ ∀ m, N ≤ m → (g m).threads[i]? = some .finished := by
  obtain ⟨g, who, -, hE, hf, hr⟩ := C112_runs (W := exWorld) (srv := exServer exEnv) (.init (fun _ => str% "start") 7)
    fun c => if c.threads.length % 2 = 0 then .compare exArgs else .branches (str% "repo") true
  refine ⟨g, who, hE, hf, fun n => ?_, fun n i pc hi => C112_served rfl hE hf hi⟩
  obtain ⟨m, h1, h2⟩ := hr n
  exact ⟨m, h1, by rw [h2]; simp⟩

/-- A fair run of a concrete site in a peaceful world, in which requests keep coming: each of them is answered. -/
example : ∃ g who, EndlessSite exSiteWorld exSite g who ∧ FairTo exSiteWorld exSite.srv (fun n => (g n).conf) who ∧
    (∀ n, ∃ m, n ≤ m ∧ (g (m + 1)).inbox.length = (g m).inbox.length + 1) ∧
    ∀ n k, k < (g n).inbox.length → ∃ N, n ≤ N ∧ ∃ resp, exSite.Replied (g N) k resp := by
  obtain ⟨g, who, -, hE, hf, hr⟩ := C112_site_runs (W := exSiteWorld) (s := exSite) (.init (fun _ => str% "start") 7)
    fun st => if st.inbox.length % 2 = 0 then exCompareRequest else ⟨str% "GET", utf8 (str% "/branches"), utf8 (str% "repo=repo&fetch=true")⟩
  refine ⟨g, who, hE, hf, fun n => ?_, fun n k hk => C112_answered rfl exSite_peaceful rfl hE hf hk⟩
  obtain ⟨m, h1, x, h2⟩ := hr n
  exact ⟨m, h1, by rw [h2]; simp⟩

/-- A concrete comparison that waits forever. -/
example : ∃ g who, Endless exWorld { exServer exEnv with writerPref := false } g who ∧ FairTo exWorld { exServer exEnv with writerPref := false } g who ∧
    ∀ n, (g n).threads[0]? = some (.wantShard exArgs) := by
  obtain ⟨g, who, h1, h2, h3, -⟩ := C112_starved (W := exWorld) (srv := { exServer exEnv with writerPref := false }) rfl (a := exArgs) (by decide)
    (r := str% "repo") rfl true (fun _ => str% "start") 7
  exact ⟨g, who, h1, h2, fun n => (h3 n).1⟩

end

end Swc
