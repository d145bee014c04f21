/-
C56: the requests of the web server never block each other forever.
-/
import Verif.Props.Web
import Mathlib.Order.WellFounded

namespace Swc

open Spec Prog

variable {W : World} {srv : Server}

/-- Requests that never have to wait. -/
def Unblocked (srv : Server) {σ : Type} : Pc σ → Prop
  | .scan _ i => srv.shards ≤ i
  | .scanBoth _ _ => True
  | .looking _ => True
  | .check _ => True
  | .running _ _ _ _ => True
  | .store _ _ _ _ _ => True
  | .branching _ _ => True
  | _ => False

theorem unblocked_step {id : Nat} {pc : Pc W.State} {s : Shared W.State} (h : Unblocked srv pc) (hok : ThreadOk W srv s pc) :
    ∃ pc' s', Act1 W srv id pc s pc' s' := by
  cases pc with
  | scan next i => exact ⟨_, _, .scanEnd h⟩
  | scanBoth next i => exact ⟨_, _, .scanDrop⟩
  | looking a =>
    by_cases hr : srv.repos a.repo = none
    · exact ⟨_, _, .unknown hr⟩
    · exact ⟨_, _, .known hr⟩
  | check a =>
    cases hc : cacheGet s.cache a with
    | none => exact ⟨_, _, .miss hc⟩
    | some e =>
      obtain ⟨t, v⟩ := e
      cases hf : isFresh t s.clock with
      | true => exact ⟨_, _, .hit hc hf⟩
      | false => exact ⟨_, _, .expired hc hf⟩
  | running a ho st p =>
    by_cases hd : ∃ r, p = .done r
    · obtain ⟨r, rfl⟩ := hd
      have : Halts r := by cases hok.2.2.1; assumption
      exact ⟨_, _, .ended this⟩
    · obtain ⟨p', s', hs⟩ := step_some_of_not_done (W := W) (fun r hr => hd ⟨r, hr⟩) (s.repo a.repo)
      exact ⟨_, _, .work hs⟩
  | store a ho st fi r =>
    have hr : Halts r := hok.2.2.1
    cases r with
    | ok v => exact ⟨_, _, .storeOk⟩
    | err m => exact ⟨_, _, .storeErr⟩
    | panic => exact ⟨_, _, .storePanic⟩
    | diverge => exact absurd rfl hr
  | branching r p =>
    by_cases hd : ∃ r, p = .done r
    · obtain ⟨q, rfl⟩ := hd
      have hq : Halts q := by cases hok; assumption
      cases q with
      | ok v => exact ⟨_, _, .branchOk⟩
      | err m => exact ⟨_, _, .branchErr⟩
      | panic => exact ⟨_, _, .branchPanic⟩
      | diverge => exact absurd rfl hq
    · obtain ⟨p', s', hs⟩ := step_some_of_not_done (W := W) (fun r hr => hd ⟨r, hr⟩) (s.repo r)
      exact ⟨_, _, .branchWork hs⟩
  | _ => exact absurd h (by simp [Unblocked])

/-- C56: whenever some request is unfinished, some request can make a step; whether readers or writers are preferred does not matter. -/
theorem C56_progress {c : Config W.State} (h : Reachable W srv c) (hu : ¬ AllDone c) : ∃ i c', ThreadStep W srv i c c' := by
  have hinv := inv_reachable h
  have hl := hinv.locks
  have go : ∀ {i pc}, c.threads[i]? = some pc → (∃ pc' s', Act1 W srv i pc c.sh pc' s') → ∃ i c', ThreadStep W srv i c c' := by
    rintro i pc hi ⟨pc', s', ha⟩
    exact ⟨i, _, pc, pc', s', hi, ha, rfl⟩
  by_cases hub : ∃ (i : Nat) (pc : Pc W.State), c.threads[i]? = some pc ∧ Unblocked srv pc
  · obtain ⟨i, pc, hi, hub⟩ := hub
    exact go hi (unblocked_step hub (hinv.threads i pc hi))
  · have hall : ∀ {i : Nat} {pc : Pc W.State}, c.threads[i]? = some pc → ¬ Unblocked srv pc := fun hi h => hub ⟨_, _, hi, h⟩
    -- nobody holds a shard exclusively
    have hw : ∀ k, (c.sh.locks k).writer = false := by
      intro k
      cases hb : (c.sh.locks k).writer with
      | false => rfl
      | true =>
        have h1 := hl.writer k
        rw [hb, Bool.toNat_true] at h1
        obtain ⟨i, pc, hi, hp⟩ := total_pos (l := c.threads) (exclusiveBy srv k) (by rw [← h1]; decide)
        cases pc <;> first | (exfalso; exact hall hi trivial) | simp [exclusiveBy] at hp
    by_cases hws : ∃ (i : Nat) (a : CompareArgs), c.threads[i]? = some (.wantShard a)
    · obtain ⟨i, a, hi⟩ := hws
      by_cases hr : (c.sh.locks (srv.shardOf a.repo)).readers = 0
      · exact go hi ⟨_, _, .permit ⟨fun l => l, fun _ => List.Perm.refl _⟩ ⟨hw _, hr⟩⟩
      · -- only an iteration can hold the shard, and it can go on
        obtain ⟨j, pc, hj, hp⟩ := total_pos (l := c.threads) (sharedBy srv (srv.shardOf a.repo)) (by rw [← hl.readers]; omega)
        cases pc with
        | scan next n =>
          have hn : n = srv.shardOf a.repo + 1 := by
            by_contra hc
            simp [sharedBy, hc] at hp
          have hlt : n < srv.shards := by
            by_contra hc
            exact hall hj (by show srv.shards ≤ n; omega)
          refine go hj ⟨_, _, .scanTake hlt ⟨hw n, fun _ => ?_⟩⟩
          rw [hl.waiting n]
          by_contra hne
          obtain ⟨m, q, hm, hq⟩ := total_pos (l := c.threads) (waitedBy srv n) (by omega)
          cases q with
          | wantShard a' =>
            have := mutex_unique hl hi hm rfl rfl
            subst this
            rw [hi] at hm
            cases hm
            simp only [waitedBy] at hq
            split at hq
            · omega
            · omega
          | _ => simp [waitedBy] at hq
        | scanBoth => exact absurd trivial (hall hj)
        | looking => exact absurd trivial (hall hj)
        | branching => exact absurd trivial (hall hj)
        | _ => simp [sharedBy] at hp
    · have hwait : ∀ k, (c.sh.locks k).waiting = 0 := by
        intro k
        by_contra hne
        rw [hl.waiting k] at hne
        obtain ⟨m, q, hm, hq⟩ := total_pos (l := c.threads) (waitedBy srv k) (by omega)
        cases q with
        | wantShard a' => exact hws ⟨m, a', hm⟩
        | _ => simp [waitedBy] at hq
      have hmx : c.sh.mutex = false := by
        cases hb : c.sh.mutex with
        | false => rfl
        | true =>
          have h1 := hl.mutex
          rw [hb, Bool.toNat_true] at h1
          obtain ⟨m, q, hm, hq⟩ := total_pos (l := c.threads) mutexBy (by rw [← h1]; decide)
          cases q with
          | wantShard a' => exact absurd ⟨m, a', hm⟩ hws
          | check => exact absurd trivial (hall hm)
          | running => exact absurd trivial (hall hm)
          | store => exact absurd trivial (hall hm)
          | _ => simp [mutexBy] at hq
      unfold AllDone at hu
      push Not at hu
      obtain ⟨i, pc, hi, hne⟩ := hu
      cases pc with
      | scan next n =>
        have hlt : n < srv.shards := by
          by_contra hc
          exact hall hi (by show srv.shards ≤ n; omega)
        exact go hi ⟨_, _, .scanTake hlt ⟨hw _, fun _ => hwait _⟩⟩
      | lookup a => exact go hi ⟨_, _, .lookup ⟨hw _, fun _ => hwait _⟩⟩
      | wantMutex a =>
        cases hp : c.sh.poisoned with
        | false => exact go hi ⟨_, _, .lock hmx hp⟩
        | true => exact go hi ⟨_, _, .lockPoisoned hmx hp⟩
      | branchWant r f => exact go hi ⟨_, _, .branchTake ⟨hw _, fun _ => hwait _⟩⟩
      | wantShard a => exact absurd ⟨i, a, hi⟩ hws
      | finished => exact absurd rfl hne
      | _ => exact absurd trivial (hall hi)

/-! ### Every request needs finitely many steps -/

/-- A request can go from `pc` to `pc'`. -/
def Moves (W : World) (srv : Server) (pc' pc : Pc W.State) : Prop := ∃ id s s', Act1 W srv id pc s pc' s'

theorem acc_finished : Acc (Moves W srv) .finished := ⟨_, fun _ ⟨_, _, _, h⟩ => by cases h⟩

theorem acc_store (a ho st fi r) : Acc (Moves W srv) (.store a ho st fi r) :=
  ⟨_, fun _ ⟨_, _, _, h⟩ => by cases h <;> exact acc_finished⟩

theorem acc_running (a ho st) (p : Prog (List ExtrinsicDiff)) : Acc (Moves W srv) (.running a ho st p) := by
  induction p with
  | done r =>
    refine ⟨_, fun _ ⟨_, _, _, h⟩ => ?_⟩
    cases h with
    | work h => cases h
    | ended => exact acc_store _ _ _ _ _
  | git args k ih =>
    refine ⟨_, fun _ ⟨_, _, _, h⟩ => ?_⟩
    cases h with
    | work h => cases h; exact ih _
  | glob args k ih =>
    refine ⟨_, fun _ ⟨_, _, _, h⟩ => ?_⟩
    cases h with
    | work h => cases h; exact ih _
  | read args k ih =>
    refine ⟨_, fun _ ⟨_, _, _, h⟩ => ?_⟩
    cases h with
    | work h => cases h; exact ih _

theorem acc_wantShard (a) : Acc (Moves W srv) (.wantShard a) :=
  ⟨_, fun _ ⟨_, _, _, h⟩ => by cases h; exact acc_running _ _ _ _⟩

theorem acc_check (a) : Acc (Moves W srv) (.check a) :=
  ⟨_, fun _ ⟨_, _, _, h⟩ => by cases h <;> first | exact acc_finished | exact acc_wantShard _⟩

theorem acc_wantMutex (a) : Acc (Moves W srv) (.wantMutex a) :=
  ⟨_, fun _ ⟨_, _, _, h⟩ => by cases h <;> first | exact acc_finished | exact acc_check _⟩

theorem acc_looking (a) : Acc (Moves W srv) (.looking a) :=
  ⟨_, fun _ ⟨_, _, _, h⟩ => by cases h <;> first | exact acc_finished | exact acc_wantMutex _⟩

theorem acc_lookup (a) : Acc (Moves W srv) (.lookup a) := ⟨_, fun _ ⟨_, _, _, h⟩ => by cases h; exact acc_looking _⟩

theorem acc_afterScan (next) : Acc (Moves W srv) (afterScan next) := by
  cases next
  · exact acc_finished
  · exact acc_lookup _

theorem acc_scan (next) (n : Nat) : ∀ i, srv.shards - i = n → Acc (Moves W srv) (.scan next i) := by
  induction n with
  | zero =>
    intro i hi
    refine ⟨_, fun _ ⟨_, _, _, h⟩ => ?_⟩
    cases h with
    | scanTake h => omega
    | scanEnd => exact acc_afterScan _
  | succ n ih =>
    intro i hi
    refine ⟨_, fun _ ⟨_, _, _, h⟩ => ?_⟩
    cases h with
    | scanTake h =>
      refine ⟨_, fun _ ⟨_, _, _, h⟩ => ?_⟩
      cases h
      exact ih (i + 1) (by omega)
    | scanEnd => exact acc_afterScan _

theorem acc_branching (r) (p : Prog (List (Str × Str))) : Acc (Moves W srv) (.branching r p) := by
  induction p with
  | done q =>
    refine ⟨_, fun _ ⟨_, _, _, h⟩ => ?_⟩
    cases h with
    | branchWork h => cases h
    | _ => exact acc_finished
  | git args k ih =>
    refine ⟨_, fun _ ⟨_, _, _, h⟩ => ?_⟩
    cases h with
    | branchWork h => cases h; exact ih _
  | glob args k ih =>
    refine ⟨_, fun _ ⟨_, _, _, h⟩ => ?_⟩
    cases h with
    | branchWork h => cases h; exact ih _
  | read args k ih =>
    refine ⟨_, fun _ ⟨_, _, _, h⟩ => ?_⟩
    cases h with
    | branchWork h => cases h; exact ih _

theorem moves_wf : WellFounded (Moves W srv) := by
  refine ⟨fun pc => ?_⟩
  cases pc with
  | scan next i => exact acc_scan next _ i rfl
  | scanBoth next i => exact ⟨_, fun _ ⟨_, _, _, h⟩ => by cases h; exact acc_scan next _ _ rfl⟩
  | lookup a => exact acc_lookup a
  | looking a => exact acc_looking a
  | wantMutex a => exact acc_wantMutex a
  | check a => exact acc_check a
  | wantShard a => exact acc_wantShard a
  | running a ho st p => exact acc_running a ho st p
  | store a ho st fi r => exact acc_store a ho st fi r
  | branchWant r f => exact ⟨_, fun _ ⟨_, _, _, h⟩ => by cases h; exact acc_branching _ _⟩
  | branching r p => exact acc_branching r p
  | finished => exact acc_finished

/-- One element of a list gets smaller. -/
def OneLess {α : Type} (r : α → α → Prop) (l' l : List α) : Prop := ∃ (i : Nat) (x x' : α), l[i]? = some x ∧ r x' x ∧ l' = l.set i x'

theorem oneLess_wf {α : Type} {r : α → α → Prop} (h : WellFounded r) : WellFounded (OneLess r) := by
  refine ⟨fun l => ?_⟩
  induction l with
  | nil => exact ⟨_, fun _ ⟨i, x, x', hi, _⟩ => by simp at hi⟩
  | cons x l ih =>
    have hx := h.apply x
    induction hx generalizing l with
    | intro x _ ihx =>
      induction ih with
      | intro l hl ihl =>
        refine ⟨_, fun l' ⟨i, y, y', hi, hr, he⟩ => ?_⟩
        cases i with
        | zero =>
          simp only [List.getElem?_cons_zero, Option.some.injEq] at hi
          subst hi he
          exact ihx y' hr l ⟨l, hl⟩
        | succ i =>
          simp only [List.getElem?_cons_succ] at hi
          subst he
          exact ihl (l.set i y') ⟨i, y, y', hi, hr, rfl⟩

/-- C56: without new requests, only finitely many steps are possible, in whatever order and however much time passes in between. -/
theorem C56_terminates : WellFounded (fun c' c : Config W.State => Advances W srv c c') := by
  refine Subrelation.wf ?_ (InvImage.wf (fun c : Config W.State => c.threads) (oneLess_wf (moves_wf (W := W) (srv := srv))))
  rintro c' c ⟨n, i, pc, pc', s', hi, ha, rfl⟩
  exact ⟨i, pc, pc', hi, ⟨i, _, s', ha⟩, rfl⟩

/-- C56: there is no infinite run without new requests. -/
theorem C56_no_infinite_run : ¬ ∃ f : Nat → Config W.State, ∀ n, Advances W srv (f n) (f (n + 1)) := by
  rintro ⟨f, hf⟩
  have : ∀ c : Config W.State, ∀ n, f n ≠ c := by
    intro c
    induction c using (C56_terminates (W := W) (srv := srv)).induction with
    | _ c ih =>
      rintro n rfl
      exact ih _ (hf n) (n + 1) rfl
  exact this _ 0 rfl

theorem later_trans {c c' c'' : Config W.State} (h : Later W srv c c') (h' : Later W srv c' c'') : Later W srv c c'' := by
  induction h' with
  | refl => exact h
  | step _ hs ih => exact .step ih hs

/-- C56: from every reachable state, all requests can be finished (and every run without new requests that cannot be continued has
finished them, by `C56_progress`). -/
theorem C56_all_finish {c : Config W.State} (h : Reachable W srv c) :
    ∃ c', Later W srv c c' ∧ AllDone c' ∧ c'.threads.length = c.threads.length := by
  induction c using (C56_terminates (W := W) (srv := srv)).induction with
  | _ c ih =>
    by_cases hd : AllDone c
    · exact ⟨c, .refl, hd, rfl⟩
    · obtain ⟨i, c1, hs⟩ := C56_progress h hd
      obtain ⟨c', h1, h2, h3⟩ := ih c1 ⟨0, i, hs⟩ (.step h (.thread i hs))
      refine ⟨c', later_trans (.step .refl (.thread i hs)) h1, h2, ?_⟩
      rw [h3]
      obtain ⟨pc, pc', s', -, -, rfl⟩ := hs
      simp

end Swc
