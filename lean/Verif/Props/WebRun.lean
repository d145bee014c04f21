/-
Runs of the web server: what happens to a request that arrives while nothing else is going on.  These show that the states the theorems about
C54–C56 speak of do occur.
-/
import Verif.Props.Deadlock

namespace Swc

open Spec Prog

variable {W : World} {srv : Server}

/-- All of these requests are finished. -/
def Quiet {σ : Type} (l : List (Pc σ)) : Prop := ∀ pc ∈ l, pc = .finished

theorem total_quiet {σ : Type} {f : Pc σ → Nat} (hf : f .finished = 0) {l : List (Pc σ)} (h : Quiet l) (pc : Pc σ) :
    total f (l ++ [pc]) = f pc := by
  rw [total_append, total_one]
  have : total f l = 0 := by
    induction l with
    | nil => rfl
    | cons x l ih =>
      have hx : x = .finished := h x (by simp)
      have := ih fun pc hp => h pc (by simp [hp])
      simp only [total, List.map_cons, List.sum_cons] at this ⊢
      rw [hx, hf]; omega
  omega

/-- Nothing but the locks differs. -/
def Same {σ : Type} (s s' : Shared σ) : Prop :=
  s'.cache = s.cache ∧ s'.repo = s.repo ∧ s'.clock = s.clock ∧ s'.log = s.log ∧ s'.poisoned = s.poisoned

theorem Same.trans {σ : Type} {s s' s'' : Shared σ} (h : Same s s') (h' : Same s' s'') : Same s s'' :=
  ⟨h'.1.trans h.1, h'.2.1.trans h.2.1, h'.2.2.1.trans h.2.2.1, h'.2.2.2.1.trans h.2.2.2.1, h'.2.2.2.2.trans h.2.2.2.2⟩

theorem step_last {l : List (Pc W.State)} {pc pc' : Pc W.State} {s s' : Shared W.State} (h : Act1 W srv l.length pc s pc' s') :
    Later W srv ⟨l ++ [pc], s⟩ ⟨l ++ [pc'], s'⟩ :=
  .step .refl (.thread l.length ⟨pc, pc', s', by simp, h, by simp⟩)

/-- A request arrives. -/
theorem arrived (c : Config W.State) (r : Request) : Later W srv c ⟨c.threads ++ [begin r], c.sh⟩ := .step .refl (.arrive r)

theorem quiet_canRead {l : List (Pc W.State)} {pc : Pc W.State} {s : Shared W.State} (h : Reachable W srv ⟨l ++ [pc], s⟩) (hq : Quiet l)
    {k : Nat} (h1 : exclusiveBy srv k pc = 0) (h2 : waitedBy srv k pc = 0) : (s.locks k).canRead srv := by
  have hl := locksOk_reachable h
  have e1 := hl.writer k
  have e2 := hl.waiting k
  rw [total_quiet rfl hq, h1] at e1
  rw [total_quiet rfl hq, h2] at e2
  refine ⟨?_, fun _ => e2⟩
  cases hb : (s.locks k).writer with
  | false => rfl
  | true => rw [hb] at e1; cases e1

theorem run_scan {l : List (Pc W.State)} (hq : Quiet l) (next : Option CompareArgs) (n : Nat) : ∀ (i : Nat) (s : Shared W.State),
    srv.shards - i = n → Reachable W srv ⟨l ++ [.scan next i], s⟩ →
    ∃ s', Later W srv ⟨l ++ [.scan next i], s⟩ ⟨l ++ [afterScan next], s'⟩ ∧ Same s s' := by
  induction n with
  | zero =>
    intro i s hi hr
    refine ⟨_, step_last (.scanEnd (by omega)), ?_⟩
    split <;> exact ⟨rfl, rfl, rfl, rfl, rfl⟩
  | succ n ih =>
    intro i s hi hr
    have h1 := step_last (W := W) (srv := srv) (l := l) (s := s) (.scanTake (next := next) (i := i) (by omega) (quiet_canRead hr hq rfl rfl))
    have h2 := step_last (W := W) (srv := srv) (l := l) (s := s.takeRead i) (.scanDrop (next := next) (i := i))
    have h3 := later_trans h1 h2
    obtain ⟨s', h4, h5⟩ := ih (i + 1) _ (by omega) (reachable_later hr h3)
    refine ⟨s', later_trans h3 h4, Same.trans ?_ h5⟩
    split <;> exact ⟨rfl, rfl, rfl, rfl, rfl⟩

/-- A request for a known repository that has just arrived gets to the cache. -/
theorem run_to_check {c : Config W.State} (h : Reachable W srv c) (hq : Quiet c.threads) (hp : c.sh.poisoned = false) {a : CompareArgs}
    (hk : srv.repos a.repo ≠ none) : ∃ s, Later W srv ⟨c.threads ++ [begin (.compare a)], c.sh⟩ ⟨c.threads ++ [.check a], s⟩ ∧ Same c.sh s := by
  have h : Reachable W srv ⟨c.threads ++ [begin (.compare a)], c.sh⟩ := .step h (.arrive _)
  obtain ⟨s1, h1, e1⟩ := run_scan hq (some a) _ 0 c.sh rfl h
  have h2 := later_trans h1 (step_last (.lookup (quiet_canRead (reachable_later h h1) hq rfl rfl)))
  have h3 := later_trans h2 (step_last (.known hk))
  have hm := (locksOk_reachable (reachable_later h h3)).mutex
  rw [total_quiet rfl hq] at hm
  have hm : ((s1.takeRead (srv.shardOf a.repo)).dropRead (srv.shardOf a.repo)).mutex = false := by
    cases hb : ((s1.takeRead (srv.shardOf a.repo)).dropRead (srv.shardOf a.repo)).mutex with
    | false => rfl
    | true => dsimp only at hm; rw [hb] at hm; cases hm
  have h4 := later_trans h3 (step_last (.lock hm (by exact e1.2.2.2.2.trans hp)))
  exact ⟨_, h4, e1.trans ⟨rfl, rfl, rfl, rfl, rfl⟩⟩

theorem run_work {l : List (Pc W.State)} {a : CompareArgs} {ho : HashOrder} {st : W.State} (p : Prog (List ExtrinsicDiff)) :
    ∀ s : Shared W.State, ∃ s', Later W srv ⟨l ++ [.running a ho st p], s⟩ ⟨l ++ [.running a ho st (.done (p.run W (s.repo a.repo)).1)], s'⟩ ∧
      s'.cache = s.cache ∧ s'.clock = s.clock ∧ s'.log = s.log ∧ s'.poisoned = s.poisoned ∧ s'.repo a.repo = (p.run W (s.repo a.repo)).2 := by
  have go : ∀ (p p' : Prog (List ExtrinsicDiff)) (s : Shared W.State) (w : W.State), p.step W (s.repo a.repo) = some (p', w) →
      (∀ s : Shared W.State, ∃ s', Later W srv ⟨l ++ [.running a ho st p'], s⟩ ⟨l ++ [.running a ho st (.done (p'.run W (s.repo a.repo)).1)], s'⟩ ∧
      s'.cache = s.cache ∧ s'.clock = s.clock ∧ s'.log = s.log ∧ s'.poisoned = s.poisoned ∧ s'.repo a.repo = (p'.run W (s.repo a.repo)).2) →
      ∃ s', Later W srv ⟨l ++ [.running a ho st p], s⟩ ⟨l ++ [.running a ho st (.done (p.run W (s.repo a.repo)).1)], s'⟩ ∧
      s'.cache = s.cache ∧ s'.clock = s.clock ∧ s'.log = s.log ∧ s'.poisoned = s.poisoned ∧ s'.repo a.repo = (p.run W (s.repo a.repo)).2 := by
    intro p p' s w hw ih
    have h1 := step_last (W := W) (srv := srv) (l := l) (.work (ho := ho) (st := st) hw)
    obtain ⟨s', h2, h3⟩ := ih { s with repo := updAt s.repo a.repo w }
    have e : ({ s with repo := updAt s.repo a.repo w } : Shared W.State).repo a.repo = w := by simp [updAt]
    rw [e, run_step hw] at h2 h3
    exact ⟨s', later_trans h1 h2, h3⟩
  induction p with
  | done r => exact fun s => ⟨s, .refl, rfl, rfl, rfl, rfl, rfl⟩
  | git args k ih => exact fun s => go _ _ s _ rfl (ih _)
  | glob pattern k ih => exact fun s => go _ _ s _ rfl (ih _)
  | read file k ih => exact fun s => go _ _ s _ rfl (ih _)

/-- A request that does not find a result starts comparing. -/
theorem run_to_running {c : Config W.State} (h : Reachable W srv c) (hq : Quiet c.threads) (hp : c.sh.poisoned = false) {a : CompareArgs}
    (hk : srv.repos a.repo ≠ none) (hc : cacheGet c.sh.cache a = none) (ho : HashOrder) :
    ∃ s, Later W srv ⟨c.threads ++ [begin (.compare a)], c.sh⟩ ⟨c.threads ++ [.running a ho (c.sh.repo a.repo) (doCompare srv ho a)], s⟩ ∧
      Same c.sh s := by
  obtain ⟨s1, h1, e1⟩ := run_to_check h hq hp hk
  have h : Reachable W srv ⟨c.threads ++ [begin (.compare a)], c.sh⟩ := .step h (.arrive _)
  have h2 := later_trans h1 (step_last (.miss (by rw [e1.1]; exact hc)))
  have hl := locksOk_reachable (reachable_later h h2)
  have hw := hl.writer (srv.shardOf a.repo)
  have hr := hl.readers (srv.shardOf a.repo)
  rw [total_quiet rfl hq] at hw hr
  have hcan : (((s1.wait (srv.shardOf a.repo))).locks (srv.shardOf a.repo)).canWrite := by
    refine ⟨?_, hr⟩
    cases hb : ((s1.wait (srv.shardOf a.repo)).locks (srv.shardOf a.repo)).writer with
    | false => rfl
    | true => dsimp only at hw; rw [hb] at hw; cases hw
  have h3 := later_trans h2 (step_last (.permit ho hcan))
  have er' : (s1.wait (srv.shardOf a.repo)).repo = c.sh.repo := e1.2.1
  rw [er'] at h3
  exact ⟨_, h3, e1.trans ⟨rfl, rfl, rfl, rfl, rfl⟩⟩

/-- How a comparison is answered. -/
def answerOf {σ : Type} (id : Nat) (a : CompareArgs) (t : Nat) : Res (List ExtrinsicDiff) → Entry σ
  | .ok v => .answered id a (.ok v) false t
  | .err m => .answered id a (.error m) false t
  | _ => .died id

/-- A request that does not find a result compares, in every order in which the hash set may be iterated. -/
theorem C54_computes {c : Config W.State} (h : Reachable W srv c) (hq : Quiet c.threads) (hp : c.sh.poisoned = false) {a : CompareArgs}
    (hk : srv.repos a.repo ≠ none) (hc : cacheGet c.sh.cache a = none) (ho : HashOrder) : ∃ c' r fi,
    Later W srv ⟨c.threads ++ [begin (.compare a)], c.sh⟩ c' ∧ c'.threads = c.threads ++ [.finished] ∧ (r, fi) = (doCompare srv ho a).run W (c.sh.repo a.repo) ∧
    Alone W srv ho a (c.sh.repo a.repo) r fi ∧
    c'.sh.log = c.sh.log ++ [.computed c.threads.length a ho (c.sh.repo a.repo) fi r c.sh.clock, answerOf c.threads.length a c.sh.clock r] ∧
    c'.sh.repo a.repo = fi ∧ c'.sh.clock = c.sh.clock ∧ (c'.sh.poisoned = true ↔ r = .panic) ∧
    (∀ v, r = .ok v → cacheGet c'.sh.cache a = some (c.sh.clock, v)) := by
  obtain ⟨s3, h3, e3⟩ := run_to_running h hq hp hk hc ho
  have h : Reachable W srv ⟨c.threads ++ [begin (.compare a)], c.sh⟩ := .step h (.arrive _)
  obtain ⟨s4, h4, f1, f2, f3, f5, f4⟩ := run_work (W := W) (srv := srv) (l := c.threads) (a := a) (ho := ho)
    (st := c.sh.repo a.repo) (doCompare srv ho a) s3
  have h4 := later_trans h3 h4
  have el : s4.log = c.sh.log := f3.trans e3.2.2.2.1
  have ep : s4.poisoned = false := f5.trans (e3.2.2.2.2.trans hp)
  have ec : s4.clock = c.sh.clock := f2.trans e3.2.2.1
  rw [e3.2.1] at f4 h4
  obtain ⟨r, fi, hrf⟩ : ∃ r fi, (doCompare srv ho a).run W (c.sh.repo a.repo) = (r, fi) := ⟨_, _, rfl⟩
  rw [hrf] at f4 h4
  have hok := (inv_reachable (reachable_later h h4)).threads c.threads.length (.running a ho (c.sh.repo a.repo) (.done r)) (by simp)
  have hh : Halts r := by cases hok.2.2.1; assumption
  have h5 := later_trans h4 (step_last (.ended hh))
  have hal : Alone W srv ho a (c.sh.repo a.repo) r fi := doCompare_alone hk hrf.symm
  dsimp only at f4
  rw [f4] at h5
  cases r with
  | ok v =>
    have h6 := later_trans h5 (step_last .storeOk)
    refine ⟨_, _, fi, h6, rfl, hrf.symm, hal, ?_, f4, ec, ?_, fun w hw => ?_⟩
    · show s4.log ++ [_, _] = _
      rw [el]
      show c.sh.log ++ [.computed _ _ _ _ _ _ s4.clock, .answered _ _ _ _ s4.clock] = _
      rw [ec]; rfl
    · show s4.poisoned = true ↔ _
      simp [ep]
    · cases hw
      show cacheGet ((a, s4.clock, v) :: cacheRemove s4.cache a) a = _
      rw [cacheGet_store, ec]
  | err m =>
    have h6 := later_trans h5 (step_last .storeErr)
    refine ⟨_, _, fi, h6, rfl, hrf.symm, hal, ?_, f4, ec, ?_, fun w hw => (by cases hw)⟩
    · show s4.log ++ [_, _] = _
      rw [el]
      show c.sh.log ++ [.computed _ _ _ _ _ _ s4.clock, .answered _ _ _ _ s4.clock] = _
      rw [ec]; rfl
    · show s4.poisoned = true ↔ _
      simp [ep]
  | panic =>
    have h6 := later_trans h5 (step_last .storePanic)
    refine ⟨_, _, fi, h6, rfl, hrf.symm, hal, ?_, f4, ec, ?_, fun w hw => (by cases hw)⟩
    · show s4.log ++ [_, _] = _
      rw [el]
      show c.sh.log ++ [.computed _ _ _ _ _ _ s4.clock, _] = _
      rw [ec]; rfl
    · exact ⟨fun _ => rfl, fun _ => rfl⟩
  | diverge => exact absurd rfl hh

/-- A request with a cached result gets it. -/
theorem run_hit {c : Config W.State} (h : Reachable W srv c) (hq : Quiet c.threads) (hp : c.sh.poisoned = false) {a : CompareArgs}
    (hk : srv.repos a.repo ≠ none) {t : Nat} {v : List ExtrinsicDiff} (hc : cacheGet c.sh.cache a = some (t, v))
    (hf : isFresh t c.sh.clock = true) : ∃ c', Later W srv ⟨c.threads ++ [begin (.compare a)], c.sh⟩ c' ∧ c'.threads = c.threads ++ [.finished] ∧
    c'.sh.log = c.sh.log ++ [.answered c.threads.length a (.ok v) true c.sh.clock] := by
  obtain ⟨s1, h1, e1⟩ := run_to_check h hq hp hk
  have h2 := later_trans h1 (step_last (.hit (by rw [e1.1]; exact hc) (by rw [e1.2.2.1]; exact hf)))
  refine ⟨_, h2, rfl, ?_⟩
  show s1.log ++ [.answered _ _ _ _ s1.clock] = _
  rw [e1.2.2.1, e1.2.2.2.1]

/-! ### A concrete server -/

/-- Two shards, one repository in `r`. -/
def exServer (env : Env) : Server where
  build := .release
  rx := exRegex
  env := env
  repos r := if r = str% "repo" then some [.normal (str% "r")] else none
  shards := 2
  shardOf r := if r = str% "repo" then 1 else 0
  shardOf_lt r := by split <;> decide
  writerPref := true

def exArgs : CompareArgs :=
  { old := str% " v1", new := str% "v2 ", repo := str% "repo", pathPattern := str% "*", extrinsic := none, pallet := none, ignoreErrors := false,
    threshold := 5, unit := .time, gitPull := none, method := .base }

/-- A file whose weight function consists of an item. -/
def exPanicEnv : Env := ⟨fun _ => .ok [.impl (.path false [str% "SubstrateWeight"]) [.fn { exFn [] with stmts := [.other] }]], asciiClass⟩

def isOk {α : Type} : Res α → Bool
  | .ok _ => true
  | _ => false
def isPanic {α : Type} : Res α → Bool
  | .panic => true
  | _ => false

/-- A comparison and, 599 seconds later, the same from the cache. -/
theorem C54_example : ∃ c, Reachable exWorld (exServer exEnv) c ∧ c.threads = [.finished, .finished] ∧ ∃ st fi ho v,
    c.sh.log = [.computed 0 exArgs ho st fi (.ok v) 7, .answered 0 exArgs (.ok v) false 7,
      .answered 1 exArgs (.ok v) true (7 + 599 * 10 ^ 9)] := by
  have h0 : Reachable exWorld (exServer exEnv) (initial exWorld (fun _ => str% "start") 7) := .init _ _
  obtain ⟨c, r, fi, h1, h2, h3, -, h4, h5, h6, h7, h8⟩ := C54_computes (a := exArgs) h0 (by intro pc hp; cases hp) rfl (by decide) rfl idOrder
  have h1 := later_trans (arrived _ _) h1
  have hok : isOk r = true := by
    have : r = ((doCompare (exServer exEnv) idOrder exArgs).run exWorld (str% "start")).1 := congrArg Prod.fst h3
    rw [this]
    decide +kernel
  obtain ⟨v, rfl⟩ : ∃ v, r = .ok v := by cases r <;> simp [isOk] at hok; exact ⟨_, rfl⟩
  have hp : c.sh.poisoned = false := by
    cases hb : c.sh.poisoned with
    | false => rfl
    | true => exact absurd (h7.1 hb) (fun h => by cases h)
  have h9 : Later exWorld (exServer exEnv) _ _ := .step h1 (.tick (599 * 10 ^ 9))
  have hcl : c.sh.clock = 7 := h6
  have hget : cacheGet c.sh.cache exArgs = some (7, v) := h8 v rfl
  obtain ⟨c', g1, g2, g3⟩ := run_hit (a := exArgs) (t := 7) (v := v) (reachable_later h0 h9) (by rw [h2]; intro pc hp; simpa [initial] using hp) hp
    (by decide) hget (by show isFresh 7 (c.sh.clock + _) = true; rw [hcl]; decide)
  refine ⟨c', reachable_later h0 (later_trans h9 (later_trans (arrived _ _) g1)), by rw [g2, h2]; rfl, str% "start", fi, idOrder, v, ?_⟩
  rw [g3]
  show c.sh.log ++ [.answered c.threads.length _ _ _ (c.sh.clock + 599 * 10 ^ 9)] = _
  rw [h4, h2, hcl]
  rfl

/-- C54 (finding): one malformed file is enough to poison the cache; `C54_poisoned_forever` says what this means for all later requests. -/
theorem C54_poison_possible : ∃ c, Reachable exWorld (exServer exPanicEnv) c ∧ c.sh.poisoned = true := by
  have h0 : Reachable exWorld (exServer exPanicEnv) (initial exWorld (fun _ => str% "start") 7) := .init _ _
  obtain ⟨c, r, fi, h1, h2, h3, -, h4, h5, h6, h7, h8⟩ := C54_computes (a := exArgs) h0 (by intro pc hp; cases hp) rfl (by decide) rfl idOrder
  have h1 := later_trans (arrived _ _) h1
  refine ⟨c, reachable_later h0 h1, h7.2 ?_⟩
  have : r = ((doCompare (exServer exPanicEnv) idOrder exArgs).run exWorld (str% "start")).1 := congrArg Prod.fst h3
  have hpan : isPanic r = true := by
    rw [this]
    decide +kernel
  cases r <;> simp [isPanic] at hpan
  rfl

/-- The hypotheses of C55 and C56 are met: one request compares, two others have arrived. -/
example : ∃ s, Reachable exWorld (exServer exEnv) ⟨[.running exArgs idOrder (str% "start") (doCompare (exServer exEnv) idOrder exArgs), .scan none 0,
    .branchWant (str% "repo") true], s⟩ := by
  have h0 : Reachable exWorld (exServer exEnv) (initial exWorld (fun _ => str% "start") 7) := .init _ _
  obtain ⟨s, h1, -⟩ := run_to_running (a := exArgs) h0 (by intro pc hp; cases hp) rfl (by decide) rfl idOrder
  have h1 := later_trans (arrived _ _) h1
  exact ⟨s, .step (.step (reachable_later h0 h1) (.arrive .list)) (.arrive (.branches (str% "repo") true))⟩

end Swc
