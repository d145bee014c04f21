/-
C113: the workers of the server.
-/
import Verif.Spec.Workers
import Verif.Props.Fair

namespace Swc

open Spec Prog

section

variable {W : World} {s : Site} {num : Nat}

/-- What the workers do is what the site can do. -/
theorem pool_site {p p' : PoolState W.State} {e : Ev} (h : Pool.Step W s num p e p') : p'.site = p.site ∨ s.Step W p.site p'.site := by
  cases h with
  | come w r hw => exact .inl rfl
  | now hk hf ha => exact .inr (.now _ ha)
  | enter hk hf ha => exact .inr (.later _ ha)
  | work hb h hn => exact .inr (.thread _ h)
  | leave hb h hn => exact .inr (.thread _ h)
  | tick d => exact .inr (.tick d)

/-- C113: whatever the server with its workers can reach, the site can reach when every request has its own thread. -/
theorem C113_refines {p : PoolState W.State} (h : Pool.Reachable W s num p) : s.Reachable W p.site := by
  induction h with
  | init repo clock => exact .init _ _
  | step _ hs ih =>
    rcases pool_site hs with e | h
    · rw [e]; exact ih
    · exact .step ih h

/-- What holds in all reachable states: which handlers are in progress, and which connection has which place. -/
structure PoolOk (W : World) (num : Nat) (p : PoolState W.State) : Prop where
  busy : ∀ w id, p.busy w = some id → w < num ∧ InProgress p.site.conf id
  one : ∀ w w' id, p.busy w = some id → p.busy w' = some id → w = w'
  all : ∀ id, InProgress p.site.conf id → ∃ w, p.busy w = some id
  worker : ∀ (k : Nat) c, p.conns[k]? = some c → c.worker < num
  taken : ∀ (k : Nat) c j, p.conns[k]? = some c → c.taken = some j → ∃ x, p.site.inbox[j]? = some (c.request, x)
  unique : ∀ (k k' : Nat) c c' j, p.conns[k]? = some c → p.conns[k']? = some c' → c.taken = some j → c'.taken = some j → k = k'

theorem inProgress_set {c : Config W.State} {id i : Nat} {pc : Pc W.State} {sh : Shared W.State} (hid : InProgress c id) :
    InProgress ⟨c.threads.set id pc, sh⟩ i ↔ (i = id ∧ pc ≠ .finished) ∨ (i ≠ id ∧ InProgress c i) := by
  obtain ⟨q, hq, -⟩ := hid
  have hlt := (List.getElem?_eq_some_iff.1 hq).1
  unfold InProgress
  dsimp only
  by_cases h : i = id
  · subst h
    rw [List.getElem?_set_self hlt]
    constructor
    · rintro ⟨_, e, h⟩; cases e; exact .inl ⟨rfl, h⟩
    · rintro (⟨-, h⟩ | ⟨h, -⟩)
      · exact ⟨_, rfl, h⟩
      · exact absurd rfl h
  · rw [List.getElem?_set_ne (Ne.symm h)]
    simp [h]

theorem inProgress_append {c : Config W.State} {i : Nat} (req : Request) {sh : Shared W.State} :
    InProgress ⟨c.threads ++ [begin req], sh⟩ i ↔ i = c.threads.length ∨ InProgress c i := by
  unfold InProgress
  dsimp only
  have hb : (begin req : Pc W.State) ≠ .finished := by cases req <;> exact fun h => nomatch h
  by_cases h : i < c.threads.length
  · rw [List.getElem?_append_left h]
    constructor
    · exact .inr
    · rintro (e | h')
      · omega
      · exact h'
  · by_cases e : i = c.threads.length
    · subst e
      simp [hb]
    · rw [List.getElem?_eq_none (by simp; omega), List.getElem?_eq_none (by omega)]
      simp [e]

theorem poolOk_take {p : PoolState W.State} (ih : PoolOk W num p) {k w : Nat} {r : HttpRequest} (hk : p.conns[k]? = some ⟨w, r, none⟩) {x : Response ⊕ Nat} :
    (∀ (k' : Nat) c, (p.conns.set k ⟨w, r, some p.site.inbox.length⟩)[k']? = some c → c.worker < num) ∧
    (∀ (k' : Nat) c j, (p.conns.set k ⟨w, r, some p.site.inbox.length⟩)[k']? = some c → c.taken = some j →
      ∃ y, (p.site.inbox ++ [(r, x)])[j]? = some (c.request, y)) ∧
    ∀ (k1 k2 : Nat) c c' j, (p.conns.set k ⟨w, r, some p.site.inbox.length⟩)[k1]? = some c →
      (p.conns.set k ⟨w, r, some p.site.inbox.length⟩)[k2]? = some c' → c.taken = some j → c'.taken = some j → k1 = k2 := by
  have hlt := (List.getElem?_eq_some_iff.1 hk).1
  have get : ∀ (k' : Nat) c, (p.conns.set k ⟨w, r, some p.site.inbox.length⟩)[k']? = some c →
      (k' = k ∧ c = ⟨w, r, some p.site.inbox.length⟩) ∨ (k' ≠ k ∧ p.conns[k']? = some c) := by
    intro k' c h
    by_cases e : k' = k
    · subst e
      rw [List.getElem?_set_self hlt] at h
      cases h
      exact .inl ⟨rfl, rfl⟩
    · rw [List.getElem?_set_ne (Ne.symm e)] at h
      exact .inr ⟨e, h⟩
  have old : ∀ (k' : Nat) c j, p.conns[k']? = some c → c.taken = some j → j < p.site.inbox.length := by
    intro k' c j h1 h2
    obtain ⟨y, hy⟩ := ih.taken k' c j h1 h2
    exact (List.getElem?_eq_some_iff.1 hy).1
  refine ⟨fun k' c h => ?_, fun k' c j h1 h2 => ?_, fun k1 k2 c c' j h1 h2 h3 h4 => ?_⟩
  · rcases get k' c h with ⟨-, rfl⟩ | ⟨-, h⟩
    · exact ih.worker k ⟨w, r, none⟩ hk
    · exact ih.worker k' c h
  · rcases get k' c h1 with ⟨-, rfl⟩ | ⟨-, h⟩
    · cases h2
      exact ⟨x, by simp⟩
    · obtain ⟨y, hy⟩ := ih.taken k' c j h h2
      exact ⟨y, by rw [List.getElem?_append_left (old k' c j h h2)]; exact hy⟩
  · rcases get k1 c h1 with ⟨e1, rfl⟩ | ⟨e1, g1⟩ <;> rcases get k2 c' h2 with ⟨e2, rfl⟩ | ⟨e2, g2⟩
    · rw [e1, e2]
    · cases h3
      exact absurd (old k2 c' _ g2 h4) (Nat.lt_irrefl _)
    · cases h4
      exact absurd (old k1 c _ g1 h3) (Nat.lt_irrefl _)
    · exact ih.unique k1 k2 c c' j g1 g2 h3 h4

theorem poolOk {p : PoolState W.State} (h : Pool.Reachable W s num p) : PoolOk W num p := by
  induction h with
  | init repo clock =>
    refine ⟨fun _ _ h => (nomatch h), fun _ _ _ h => (nomatch h), fun id h => ?_, fun k c h => (by simp at h), fun k c j h => (by simp at h),
      fun k k' c c' j h => (by simp at h)⟩
    obtain ⟨pc, h, -⟩ := h
    simp [initial] at h
  | @step p p' e h hs ih =>
    cases hs with
    | come w r hw =>
      have get : ∀ (k : Nat) c, (p.conns ++ [⟨w, r, none⟩])[k]? = some c → p.conns[k]? = some c ∨ c = ⟨w, r, none⟩ := by
        intro k c hk
        by_cases hlt : k < p.conns.length
        · rw [List.getElem?_append_left hlt] at hk
          exact .inl hk
        · rw [List.getElem?_append_right (by omega)] at hk
          exact .inr (by simpa using List.mem_of_getElem? hk)
      refine ⟨ih.busy, ih.one, ih.all, fun k c hk => ?_, fun k c j hk hj => ?_, fun k k' c c' j h1 h2 h3 h4 => ?_⟩
      · rcases get k c hk with hk | rfl
        · exact ih.worker k c hk
        · exact hw
      · rcases get k c hk with hk | rfl
        · exact ih.taken k c j hk hj
        · cases hj
      · rcases get k c h1 with g1 | rfl
        · rcases get k' c' h2 with g2 | rfl
          · exact ih.unique k k' c c' j g1 g2 h3 h4
          · cases h4
        · cases h3
    | now hk hf ha =>
      obtain ⟨h1, h2, h3⟩ := poolOk_take ih hk
      exact ⟨ih.busy, ih.one, ih.all, h1, h2, h3⟩
    | @enter k w r req hk hf ha =>
      obtain ⟨h1, h2, h3⟩ := poolOk_take ih hk
      have new : ∀ v, p.busy v ≠ some p.site.conf.threads.length := fun v hv => by
        obtain ⟨-, pc, h, -⟩ := ih.busy v _ hv
        exact absurd (List.getElem?_eq_some_iff.1 h).1 (Nat.lt_irrefl _)
      refine ⟨fun v id hv => ?_, fun v v' id hv hv' => ?_, fun id hid => ?_, h1, h2, h3⟩
      · dsimp only at hv
        split at hv
        · next e =>
          cases hv
          rw [e]
          exact ⟨ih.worker k _ hk, (inProgress_append req).2 (.inl rfl)⟩
        · obtain ⟨g1, g2⟩ := ih.busy v id hv
          exact ⟨g1, (inProgress_append req).2 (.inr g2)⟩
      · dsimp only at hv hv'
        split at hv <;> split at hv'
        · next e e' => rw [e, e']
        · cases hv; exact absurd hv' (new _)
        · cases hv'; exact absurd hv (new _)
        · exact ih.one v v' id hv hv'
      · dsimp only
        rcases (inProgress_append req).1 hid with rfl | hid
        · exact ⟨w, if_pos rfl⟩
        · obtain ⟨v, hv⟩ := ih.all id hid
          refine ⟨v, ?_⟩
          rw [if_neg]
          · exact hv
          · rintro rfl
            rw [hf] at hv
            cases hv
    | @work w id c hb hst hn =>
      obtain ⟨pc, pc', sh, g1, g2, rfl⟩ := hst
      have hid := (ih.busy w id hb).2
      have hpc : pc' ≠ .finished := fun e => hn (by dsimp only; rw [List.getElem?_set_self (List.getElem?_eq_some_iff.1 g1).1, e])
      have same : ∀ i, InProgress (⟨p.site.conf.threads.set id pc', sh⟩ : Config W.State) i ↔ InProgress p.site.conf i := fun i => by
        rw [inProgress_set hid]
        by_cases e : i = id
        · subst e; simp [hpc, hid]
        · simp [e]
      exact ⟨fun v i hv => ⟨(ih.busy v i hv).1, (same i).2 (ih.busy v i hv).2⟩, ih.one, fun i hi => ih.all i ((same i).1 hi), ih.worker, ih.taken, ih.unique⟩
    | @leave w id c hb hst hn =>
      obtain ⟨pc, pc', sh, g1, g2, rfl⟩ := hst
      have hid := (ih.busy w id hb).2
      have hpc : pc' = .finished := by
        dsimp only at hn
        rw [List.getElem?_set_self (List.getElem?_eq_some_iff.1 g1).1] at hn
        exact Option.some.inj hn
      subst hpc
      refine ⟨fun v i hv => ?_, fun v v' i hv hv' => ?_, fun i hi => ?_, ih.worker, ih.taken, ih.unique⟩
      · dsimp only at hv
        split at hv
        · cases hv
        · next e =>
          refine ⟨(ih.busy v i hv).1, (inProgress_set hid).2 (.inr ⟨?_, (ih.busy v i hv).2⟩)⟩
          rintro rfl
          exact e (ih.one v w i hv hb)
      · dsimp only at hv hv'
        split at hv
        · cases hv
        · split at hv'
          · cases hv'
          · exact ih.one v v' i hv hv'
      · rcases (inProgress_set hid).1 hi with ⟨-, h⟩ | ⟨hne, hi⟩
        · exact absurd rfl h
        · obtain ⟨v, hv⟩ := ih.all i hi
          refine ⟨v, ?_⟩
          dsimp only
          rw [if_neg]
          · exact hv
          · rintro rfl
            rw [hb] at hv
            cases hv
            exact hne rfl
    | tick d => exact ⟨ih.busy, ih.one, ih.all, ih.worker, ih.taken, ih.unique⟩

/-- C113: at no time are more handlers in progress than there are workers. -/
theorem C113_limit {p : PoolState W.State} (h : Pool.Reachable W s num p) {ids : List Nat} (hn : ids.Nodup) (hi : ∀ id ∈ ids, InProgress p.site.conf id) :
    ids.length ≤ num := by
  have ok := poolOk h
  have : (ids.map some).toFinset ⊆ (Finset.range num).image p.busy := by
    intro x hx
    obtain ⟨id, hid, rfl⟩ := List.mem_map.1 (List.mem_toFinset.1 hx)
    obtain ⟨w, hw⟩ := ok.all id (hi id hid)
    exact Finset.mem_image.2 ⟨w, Finset.mem_range.2 (ok.busy w id hw).1, hw⟩
  have h1 := Finset.card_le_card this
  rw [List.toFinset_card_of_nodup (hn.map (fun a b h => Option.some.inj h)), List.length_map] at h1
  exact Nat.le_trans h1 (Nat.le_trans Finset.card_image_le (by simp))

/-- C113: every worker is in at most one handler, and no two workers are in the same; a worker in a handler looks at no other request. -/
theorem C113_exclusive {p p' : PoolState W.State} {e : Ev} (h : Pool.Reachable W s num p) (hs : Pool.Step W s num p e p') {w id : Nat} (hb : p.busy w = some id)
    (hp : InProgress p'.site.conf id) : p'.busy w = some id ∧ ∀ (k : Nat) c, p.conns[k]? = some c → c.worker = w → p'.conns[k]? = some c := by
  have ok := poolOk h
  cases hs with
  | come v r hv =>
    refine ⟨hb, fun k c hk _ => ?_⟩
    dsimp only
    rw [List.getElem?_append_left (List.getElem?_eq_some_iff.1 hk).1]
    exact hk
  | now hk hf ha =>
    refine ⟨hb, fun k c hc hw => ?_⟩
    dsimp only
    rw [List.getElem?_set_ne]
    · exact hc
    · rintro rfl
      rw [hk] at hc
      cases hc
      dsimp only at hw
      subst hw
      rw [hf] at hb
      cases hb
  | @enter k v r req hk hf ha =>
    have hvw : w ≠ v := by
      rintro rfl
      rw [hf] at hb
      cases hb
    refine ⟨(if_neg hvw).trans hb, fun k c hc hw => ?_⟩
    dsimp only
    rw [List.getElem?_set_ne]
    · exact hc
    · rintro rfl
      rw [hk] at hc
      cases hc
      exact hvw hw.symm
  | work hb' hst hn => exact ⟨hb, fun k c hc _ => hc⟩
  | @leave v id' c hb' hst hn =>
    have hvw : w ≠ v := by
      rintro rfl
      rw [hb] at hb'
      cases hb'
      obtain ⟨pc, h1, h2⟩ := hp
      rw [hn] at h1
      cases h1
      exact h2 rfl
    exact ⟨(if_neg hvw).trans hb, fun k c hc _ => hc⟩
  | tick d => exact ⟨hb, fun k c hc _ => hc⟩

/-- C113: no two connections get the same answer. -/
theorem C113_own {p : PoolState W.State} (h : Pool.Reachable W s num p) {k : Nat} {c : Conn} {j : Nat} (hk : p.conns[k]? = some c) (hj : c.taken = some j) :
    (∃ x, p.site.inbox[j]? = some (c.request, x)) ∧ ∀ (k' : Nat) c', p.conns[k']? = some c' → c'.taken = some j → k' = k :=
  ⟨(poolOk h).taken k c j hk hj, fun k' c' h1 h2 => (poolOk h).unique k' k c' c j h1 hk h2 hj⟩

/-! ### No deadlock -/

/-- A connection that is not settled has not been looked at, or its handler is in progress (release builds). -/
theorem unsettled {p : PoolState W.State} (hr : s.srv.build = .release) (h : Pool.Reachable W s num p) {k : Nat} {c : Conn} (hk : p.conns[k]? = some c)
    (hs : ¬ DealtWith s p k) : c.taken = none ∨ ∃ j r id, c.taken = some j ∧ p.site.inbox[j]? = some (r, .inr id) ∧ InProgress p.site.conf id := by
  cases hj : c.taken with
  | none => exact .inl rfl
  | some j =>
    refine .inr ?_
    obtain ⟨x, hx⟩ := (poolOk h).taken k c j hk hj
    by_contra hno
    push Not at hno
    apply hs
    have hR := C113_refines h
    have hfin : ∀ r id, p.site.inbox[j]? = some (r, .inr id) → p.site.conf.threads[id]? = some .finished := by
      intro r id hx
      obtain ⟨req, pc, -, h2, -⟩ := (sound hR).known j r _ hx
      by_contra hne
      exact hno j r id rfl hx ⟨pc, h2, fun e => hne (by rw [h2, e])⟩
    rcases C89_done hR hfin (List.getElem?_eq_some_iff.1 hx).1 with ⟨resp, h1⟩ | ⟨r, id, h1, h2⟩ | ⟨r, id, a, diff, cached, t, org, h1, h2, h3, h4⟩
    · exact .inl ⟨resp, c, j, hk, hj, h1⟩
    · exact .inr ⟨c, j, r, id, hk, hj, h1, h2⟩
    · rw [hr] at h4
      exact absurd (C90_page (sound hR).reach h2 _ _ _ _) h4

theorem pool_go {p : PoolState W.State} {w id : Nat} {c : Config W.State} (hb : p.busy w = some id) (h : ThreadStep W s.srv id p.site.conf c) :
    ∃ p', Pool.Step W s num p (.go id) p' := by
  by_cases hf : c.threads[id]? = some .finished
  · exact ⟨_, .leave hb h hf⟩
  · exact ⟨_, .work hb h hf⟩

theorem pool_take {p : PoolState W.State} {k w : Nat} {r : HttpRequest} (hk : p.conns[k]? = some ⟨w, r, none⟩) (hf : p.busy w = none) :
    ∃ p', Pool.Step W s num p (.take k) p' := by
  cases ha : s.accept r with
  | answer resp => exact ⟨_, .now hk hf ha⟩
  | run req => exact ⟨_, .enter hk hf ha⟩

/-- C113: as long as a request is neither answered nor dead, some worker can do something, however many workers there are (release builds). -/
theorem C113_progress {p : PoolState W.State} (hr : s.srv.build = .release) (h : Pool.Reachable W s num p) {k : Nat} (hk : k < p.conns.length)
    (hs : ¬ DealtWith s p k) : ∃ e p', e ≠ .around ∧ Pool.Step W s num p e p' := by
  have ok := poolOk h
  have hany : (∃ id, InProgress p.site.conf id) → ∃ e p', e ≠ .around ∧ Pool.Step W s num p e p' := by
    rintro ⟨id, pc, h1, h2⟩
    obtain ⟨i, c, hi⟩ := C56_progress (sound (C113_refines h)).reach fun hd => h2 (hd id pc h1)
    have hin : InProgress p.site.conf i := by
      obtain ⟨q, q', sh, g1, g2, -⟩ := hi
      exact ⟨q, g1, by rintro rfl; cases g2⟩
    obtain ⟨w, hw⟩ := ok.all i hin
    obtain ⟨p', hp⟩ := pool_go (num := num) hw hi
    exact ⟨.go i, p', (fun e => nomatch e), hp⟩
  have hc := List.getElem?_eq_getElem hk
  generalize p.conns[k] = c at hc
  rcases unsettled hr h hc hs with hn | ⟨j, r, id, -, -, hid⟩
  · cases hb : p.busy c.worker with
    | none =>
      obtain ⟨w, r, t⟩ := c
      cases hn
      obtain ⟨p', hp⟩ := pool_take (s := s) (num := num) hc hb
      exact ⟨.take k, p', (fun e => nomatch e), hp⟩
    | some id => exact hany ⟨id, (ok.busy _ _ hb).2⟩
  · exact hany ⟨id, hid⟩

/-- Connections that nobody has looked at. -/
def untaken (l : List Conn) : Nat := l.countP fun c => c.taken.isNone

theorem untaken_set {l : List Conn} {k w : Nat} {r : HttpRequest} (hk : l[k]? = some ⟨w, r, none⟩) (j : Nat) :
    untaken (l.set k ⟨w, r, some j⟩) < untaken l := by
  unfold untaken
  induction l generalizing k with
  | nil => cases hk
  | cons c l ih =>
    cases k with
    | zero => cases hk; simp
    | succ k =>
      have := ih hk
      simp only [List.set_cons_succ, List.countP_cons]
      omega

/-- C113: the workers cannot work forever without new requests. -/
theorem C113_terminates : WellFounded (fun p' p : PoolState W.State => Works W s num p p') := by
  refine Subrelation.wf ?_ (InvImage.wf (fun p : PoolState W.State => (untaken p.conns, p.site.conf))
    (Prod.lex Nat.lt_wfRel ⟨_, C56_terminates (W := W) (srv := s.srv)⟩).wf)
  rintro p' p ⟨d, e, he, hs⟩
  cases hs with
  | come => exact absurd rfl he
  | tick => exact absurd rfl he
  | now hk hf ha => exact Prod.Lex.left _ _ (untaken_set hk _)
  | enter hk hf ha => exact Prod.Lex.left _ _ (untaken_set hk _)
  | work hb h hn => exact Prod.Lex.right _ ⟨d, _, h⟩
  | leave hb h hn => exact Prod.Lex.right _ ⟨d, _, h⟩

/-! ### Endless runs -/

variable {g : Nat → PoolState W.State} {who : Nat → Ev}

theorem pool_reach (h : EndlessPool W s num g who) (n : Nat) : Pool.Reachable W s num (g n) := by
  induction n with
  | zero => exact h.start
  | succ n ih =>
    rcases h.step n with ⟨e, -⟩ | hs
    · rw [e]; exact ih
    · exact .step ih hs

/-- Which handler makes a step. -/
def handlerOf : Ev → Option Nat
  | .go id => some id
  | _ => none

theorem site_of_pool (h : EndlessPool W s num g who) : EndlessSite W s (fun n => (g n).site) (fun n => handlerOf (who n)) where
  start := C113_refines h.start
  own n i hi := by
    rcases h.step n with ⟨-, e⟩ | hs
    · rw [e] at hi; cases hi
    · generalize who n = e at hi hs
      generalize g (n + 1) = p' at hs
      cases hs with
      | work hb h hn => cases hi; exact ⟨h, rfl⟩
      | leave hb h hn => cases hi; exact ⟨h, rfl⟩
      | _ => cases hi
  around n hn := by
    rcases h.step n with ⟨e, -⟩ | hs
    · exact .inl (by rw [e])
    · generalize who n = e at hn hs
      generalize g (n + 1) = p' at hs
      cases hs with
      | come w r hw => exact .inl rfl
      | now hk hf ha => exact .inr (.inl ⟨_, _, ha, rfl⟩)
      | enter hk hf ha => exact .inr (.inr (.inl ⟨_, _, ha, rfl⟩))
      | work hb h hn' => cases hn
      | leave hb h hn' => cases hn
      | tick d => exact .inr (.inr (.inr ⟨d, rfl⟩))

theorem fair_of_pool (h : EndlessPool W s num g who) (hf : FairPool W s num g who) :
    FairTo W s.srv (fun n => (g n).site.conf) (fun n => handlerOf (who n)) := by
  intro i hi n
  obtain ⟨m, hm, e⟩ := hf (.go i) (fun e => nomatch e) (fun n => by
    obtain ⟨m, hm, c, hc⟩ := hi n
    have hin : InProgress (g m).site.conf i := by
      obtain ⟨q, q', sh, g1, g2, -⟩ := hc
      exact ⟨q, g1, by rintro rfl; cases g2⟩
    obtain ⟨w, hw⟩ := (poolOk (pool_reach h m)).all i hin
    exact ⟨m, hm, pool_go hw hc⟩) n
  exact ⟨m, hm, by show handlerOf (who m) = _; rw [e]; rfl⟩

/-- A worker that is in a handler stays in it or leaves it. -/
theorem pool_leaves {p p' : PoolState W.State} {e : Ev} (hs : Pool.Step W s num p e p') {w id : Nat} (hb : p.busy w = some id) :
    p'.busy w = some id ∨ p'.busy w = none := by
  cases hs with
  | come => exact .inl hb
  | now => exact .inl hb
  | @enter k v r req hk hf ha =>
    refine .inl ((if_neg ?_).trans hb)
    rintro rfl
    rw [hf] at hb
    cases hb
  | work => exact .inl hb
  | @leave v id' c hb' hst hn =>
    by_cases e : w = v
    · exact .inr (if_pos e)
    · exact .inl ((if_neg e).trans hb)
  | tick => exact .inl hb

/-- A connection stays, and once it has its place it keeps it. -/
theorem conn_step {p p' : PoolState W.State} {e : Ev} (hs : Pool.Step W s num p e p') {k : Nat} {c : Conn} (hk : p.conns[k]? = some c) :
    ∃ c', p'.conns[k]? = some c' ∧ c'.worker = c.worker ∧ c'.request = c.request ∧ (c.taken = none ∧ e ≠ .take k → c' = c) ∧
      (∀ j, c.taken = some j → c'.taken = some j) ∧ (e = .take k → c'.taken ≠ none) := by
  have set_ : ∀ {k0 : Nat} {w : Nat} {r : HttpRequest} {j : Nat}, p.conns[k0]? = some ⟨w, r, none⟩ → ∃ c', (p.conns.set k0 ⟨w, r, some j⟩)[k]? = some c' ∧
      c'.worker = c.worker ∧ c'.request = c.request ∧ (c.taken = none ∧ Ev.take k0 ≠ .take k → c' = c) ∧
      (∀ j, c.taken = some j → c'.taken = some j) ∧ (Ev.take k0 = .take k → c'.taken ≠ none) := by
    intro k0 w r j h0
    by_cases e : k0 = k
    · subst e
      rw [h0] at hk
      cases hk
      refine ⟨_, List.getElem?_set_self (List.getElem?_eq_some_iff.1 h0).1, rfl, rfl, fun h => absurd rfl h.2, (fun j h => nomatch h), fun _ => (fun h => nomatch h)⟩
    · rw [List.getElem?_set_ne e]
      exact ⟨c, hk, rfl, rfl, fun _ => rfl, fun _ h => h, fun h => absurd (Ev.take.inj h) e⟩
  cases hs with
  | come w r hw =>
    refine ⟨c, ?_, rfl, rfl, fun _ => rfl, fun _ h => h, (fun h => nomatch h)⟩
    dsimp only
    rw [List.getElem?_append_left (List.getElem?_eq_some_iff.1 hk).1]
    exact hk
  | now h0 hf ha => exact set_ h0
  | enter h0 hf ha => exact set_ h0
  | work => exact ⟨c, hk, rfl, rfl, fun _ => rfl, fun _ h => h, (fun h => nomatch h)⟩
  | leave => exact ⟨c, hk, rfl, rfl, fun _ => rfl, fun _ h => h, (fun h => nomatch h)⟩
  | tick => exact ⟨c, hk, rfl, rfl, fun _ => rfl, fun _ h => h, (fun h => nomatch h)⟩

/-- C113: every worker is outside of handlers again and again. -/
theorem worker_free (hw : s.srv.writerPref = true) (h : EndlessPool W s num g who) (hf : FairPool W s num g who) (w n : Nat) :
    ∃ m, n ≤ m ∧ (g m).busy w = none := by
  cases hb : (g n).busy w with
  | none => exact ⟨n, Nat.le_refl _, hb⟩
  | some id =>
    obtain ⟨-, pc, h1, -⟩ := (poolOk (pool_reach h n)).busy w id hb
    obtain ⟨N, hN, hfin⟩ := C112_served hw (endless_of_site (site_of_pool h)) (fair_of_pool h hf) h1
    by_contra hno
    push Not at hno
    have stay : ∀ d, (g (n + d)).busy w = some id := by
      intro d
      induction d with
      | zero => exact hb
      | succ d ih =>
        rcases h.step (n + d) with ⟨e, -⟩ | hs
        · rw [show n + (d + 1) = n + d + 1 by omega, e]; exact ih
        · rcases pool_leaves hs ih with h' | h'
          · exact h'
          · exact absurd h' (hno (n + d + 1) (by omega))
    have := stay (N - n)
    rw [show n + (N - n) = N by omega] at this
    obtain ⟨-, q, h2, h3⟩ := (poolOk (pool_reach h N)).busy w id this
    have h4 : (g N).site.conf.threads[id]? = some .finished := hfin N (Nat.le_refl _)
    rw [h4] at h2
    cases h2
    exact h3 rfl

/-- C113: every request is looked at sooner or later, if waiting writers are preferred and nobody is passed over forever. -/
theorem C113_looked_at (hw : s.srv.writerPref = true) (h : EndlessPool W s num g who) (hf : FairPool W s num g who) {n k : Nat} {c : Conn}
    (hk : (g n).conns[k]? = some c) : ∃ N c' j, n ≤ N ∧ (g N).conns[k]? = some c' ∧ c'.worker = c.worker ∧ c'.request = c.request ∧ c'.taken = some j := by
  by_contra hno
  push Not at hno
  have stay : ∀ d, (g (n + d)).conns[k]? = some c ∧ c.taken = none := by
    intro d
    induction d with
    | zero =>
      refine ⟨hk, ?_⟩
      cases ht : c.taken with
      | none => rfl
      | some j => exact absurd ht (hno n c j (Nat.le_refl _) hk rfl rfl)
    | succ d ih =>
      obtain ⟨h1, h2⟩ := ih
      refine ⟨?_, h2⟩
      rcases h.step (n + d) with ⟨e, -⟩ | hs
      · rw [show n + (d + 1) = n + d + 1 by omega, e]; exact h1
      · obtain ⟨c', g1, g2, g3, g4, -, g6⟩ := conn_step hs h1
        by_cases e : who (n + d) = .take k
        · obtain ⟨j, hj⟩ := Option.ne_none_iff_exists'.1 (g6 e)
          exact absurd hj (hno (n + d + 1) c' j (by omega) g1 g2 g3)
        · rw [g4 ⟨h2, e⟩] at g1
          exact g1
  obtain ⟨m, hm, e⟩ := hf (.take k) (fun e => nomatch e) (fun m => by
    obtain ⟨m', hm', hfree⟩ := worker_free hw h hf c.worker (max n m)
    have := stay (m' - n)
    rw [show n + (m' - n) = m' by omega] at this
    obtain ⟨w, r, t⟩ := c
    obtain ⟨h1, h2⟩ := this
    cases h2
    exact ⟨m', by omega, pool_take h1 hfree⟩) n
  have h1 := stay (m - n)
  rw [show n + (m - n) = m by omega] at h1
  rcases h.step m with ⟨-, e'⟩ | hs
  · rw [e] at e'; cases e'
  · obtain ⟨c', g1, g2, g3, -, -, g6⟩ := conn_step hs h1.1
    obtain ⟨j, hj⟩ := Option.ne_none_iff_exists'.1 (g6 e)
    exact hno (m + 1) c' j (by omega) g1 g2 g3 hj

/-- C113: in every fair run every request is answered sooner or later, or its handler panics, however many workers there are and however many
requests keep coming (release builds, waiting writers preferred). -/
theorem C113_settled (hr : s.srv.build = .release) (hw : s.srv.writerPref = true) (h : EndlessPool W s num g who) (hf : FairPool W s num g who) {n k : Nat}
    (hk : k < (g n).conns.length) : ∃ N, n ≤ N ∧ DealtWith s (g N) k := by
  obtain ⟨N, c, j, hN, h1, -, -, h2⟩ := C113_looked_at hw h hf (List.getElem?_eq_getElem hk)
  obtain ⟨x, hx⟩ := (poolOk (pool_reach h N)).taken k c j h1 h2
  obtain ⟨M, hM, hd⟩ := C112_settled hr hw (site_of_pool h) (fair_of_pool h hf) (n := N) (k := j) (List.getElem?_eq_some_iff.1 hx).1
  have keep : ∀ d, ∃ c', (g (N + d)).conns[k]? = some c' ∧ c'.taken = some j := by
    intro d
    induction d with
    | zero => exact ⟨c, h1, h2⟩
    | succ d ih =>
      obtain ⟨c', g1, g2⟩ := ih
      rcases h.step (N + d) with ⟨e, -⟩ | hs
      · rw [show N + (d + 1) = N + d + 1 by omega, e]; exact ⟨c', g1, g2⟩
      · obtain ⟨c'', k1, -, -, -, k5, -⟩ := conn_step hs g1
        exact ⟨c'', k1, k5 j g2⟩
  obtain ⟨c', g1, g2⟩ := keep (M - N)
  rw [show N + (M - N) = M by omega] at g1
  refine ⟨M, by omega, ?_⟩
  rcases hd with ⟨resp, hd⟩ | ⟨r, id, hd1, hd2⟩
  · exact .inl ⟨resp, c', j, g1, g2, hd⟩
  · exact .inr ⟨c', j, r, id, g1, g2, hd1, hd2⟩

/-- C113: in a peaceful world every request is answered sooner or later. -/
theorem C113_answered (hr : s.srv.build = .release) (hp : Peaceful W s.srv.env.syn) (hw : s.srv.writerPref = true) (h : EndlessPool W s num g who)
    (hf : FairPool W s num g who) {n k : Nat} (hk : k < (g n).conns.length) : ∃ N resp, n ≤ N ∧ Pool.Answered s (g N) k resp := by
  obtain ⟨N, hN, ⟨resp, h1⟩ | ⟨c, j, r, id, -, -, -, h2⟩⟩ := C113_settled hr hw h hf hk
  · exact ⟨N, resp, hN, h1⟩
  · exact absurd h2 ((C90_alive hr hp (sound (C113_refines (pool_reach h N))).reach).2 id)

/-! ### What a busy worker does to others -/

/-- C113 (finding): while a worker is in a handler, whatever else comes to it is not looked at, not even if it needs no repository, and not even if other
workers are idle. -/
theorem C113_queued (h : EndlessPool W s num g who) {n m w id : Nat} (hb : (g n).busy w = some id)
    (hin : ∀ i, n ≤ i → i ≤ m → InProgress (g i).site.conf id) {k : Nat} {c : Conn} (hk : (g n).conns[k]? = some c) (hc : c.worker = w) (hn : c.taken = none) (hm : n ≤ m) :
    (g m).conns[k]? = some c ∧ ∀ resp, ¬ Pool.Answered s (g m) k resp := by
  have stay : ∀ d, n + d ≤ m → (g (n + d)).busy w = some id ∧ (g (n + d)).conns[k]? = some c := by
    intro d
    induction d with
    | zero => exact fun _ => ⟨hb, hk⟩
    | succ d ih =>
      intro hd
      obtain ⟨h1, h2⟩ := ih (by omega)
      rcases h.step (n + d) with ⟨e, -⟩ | hs
      · rw [show n + (d + 1) = n + d + 1 by omega, e]; exact ⟨h1, h2⟩
      · obtain ⟨g1, g2⟩ := C113_exclusive (pool_reach h _) hs h1 (hin (n + d + 1) (by omega) (by omega))
        exact ⟨g1, g2 k c h2 hc⟩
  obtain ⟨-, h2⟩ := stay (m - n) (by omega)
  rw [show n + (m - n) = m by omega] at h2
  refine ⟨h2, ?_⟩
  rintro resp ⟨c', j, h3, h4, -⟩
  rw [h2] at h3
  cases h3
  rw [hn] at h4
  cases h4

/-- C113 (finding): while all workers are in handlers, no request is looked at. -/
theorem C113_full {p p' : PoolState W.State} (h : Pool.Reachable W s num p) (hb : ∀ w, w < num → p.busy w ≠ none) {e : Ev} (hs : Pool.Step W s num p e p')
    (k : Nat) : e ≠ .take k := by
  rintro rfl
  have ok := poolOk h
  cases hs with
  | now hk hf ha => exact hb _ (ok.worker k _ hk) hf
  | enter hk hf ha => exact hb _ (ok.worker k _ hk) hf

/-- As many requests as there are workers make all of them busy. -/
theorem fill {r : HttpRequest} {req : Request} (ha : s.accept r = .run req) (repo : Str → W.State) (clock : Nat) (n : Nat) (hn : n ≤ num) :
    ∃ p, Pool.Reachable W s num p ∧ p.conns.length = n ∧ ∀ w, p.busy w ≠ none ↔ w < n := by
  induction n with
  | zero => exact ⟨_, .init repo clock, rfl, fun w => by simp⟩
  | succ n ih =>
    obtain ⟨p, h1, h2, h3⟩ := ih (by omega)
    have hk : (p.conns ++ [⟨n, r, none⟩])[n]? = some ⟨n, r, none⟩ := by rw [List.getElem?_append_right (by omega), h2]; simp
    have hf : p.busy n = none := by
      by_contra hb
      exact Nat.lt_irrefl _ ((h3 n).1 hb)
    refine ⟨_, .step (.step h1 (.come n r hn)) (.enter hk hf ha), by simp [h2], fun w => ?_⟩
    dsimp only
    by_cases e : w = n
    · simp [e]
    · rw [if_neg e, h3]
      omega

/-- C113 (finding): for every number of workers, that many requests for a comparison, a listing of branches or a page with the repositories are enough for
the server to reach a state in which any further request waits. -/
theorem C113_fills {r : HttpRequest} {req : Request} (ha : s.accept r = .run req) (r' : HttpRequest) (h0 : 0 < num) (repo : Str → W.State) (clock : Nat) :
    ∃ p, Pool.Reachable W s num p ∧ (∀ w, w < num → ∃ id, p.busy w = some id ∧ InProgress p.site.conf id) ∧ p.conns[num]? = some ⟨0, r', none⟩ ∧
      ∀ e p', Pool.Step W s num p e p' → ∀ k, e ≠ .take k := by
  obtain ⟨p, h1, h2, h3⟩ := fill ha repo clock num (Nat.le_refl _)
  have h4 : Pool.Reachable W s num _ := .step h1 (.come 0 r' h0)
  refine ⟨_, h4, fun w hw => ?_, ?_, fun e p' hs k => C113_full h4 (fun w hw => (h3 w).2 hw) hs k⟩
  · obtain ⟨id, hid⟩ := Option.ne_none_iff_exists'.1 ((h3 w).2 hw)
    exact ⟨id, hid, ((poolOk h1).busy w id hid).2⟩
  · dsimp only
    rw [List.getElem?_append_right (by omega), h2]
    simp

/-! ### Such runs exist -/

/-- Where no worker can do anything, every connection has been looked at, and no handler is in progress. -/
theorem quiet_pool {p : PoolState W.State} (h : Pool.Reachable W s num p) (hq : ¬ ∃ e p', e ≠ .around ∧ Pool.Step W s num p e p') :
    (∀ id, ¬ InProgress p.site.conf id) ∧ ∀ (k : Nat) c, p.conns[k]? = some c → c.taken ≠ none := by
  have ok := poolOk h
  have h1 : ∀ id, ¬ InProgress p.site.conf id := by
    rintro id ⟨pc, g1, g2⟩
    obtain ⟨i, c, hi⟩ := C56_progress (sound (C113_refines h)).reach fun hd => g2 (hd id pc g1)
    have hin : InProgress p.site.conf i := by
      obtain ⟨q, q', sh, k1, k2, -⟩ := hi
      exact ⟨q, k1, by rintro rfl; cases k2⟩
    obtain ⟨w, hw⟩ := ok.all i hin
    obtain ⟨p', hp⟩ := pool_go (num := num) hw hi
    exact hq ⟨.go i, p', (fun e => nomatch e), hp⟩
  refine ⟨h1, fun k c hk hn => ?_⟩
  cases hb : p.busy c.worker with
  | none =>
    obtain ⟨w, r, t⟩ := c
    cases hn
    obtain ⟨p', hp⟩ := pool_take (s := s) (num := num) hk hb
    exact hq ⟨.take k, p', (fun e => nomatch e), hp⟩
  | some id => exact h1 id (ok.busy _ _ hb).2

/-- C113: from every state that the server can reach there is a fair endless run in which requests keep coming: whichever `arriving` gives. -/
theorem C113_runs {p : PoolState W.State} (hR : Pool.Reachable W s num p) (arriving : PoolState W.State → Nat × HttpRequest)
    (ha : ∀ p, (arriving p).1 < num) : ∃ g who, g 0 = p ∧ EndlessPool W s num g who ∧ FairPool W s num g who ∧
      ∀ n, ∃ m, n ≤ m ∧ (g (m + 1)).conns = (g m).conns ++ [⟨(arriving (g m)).1, (arriving (g m)).2, none⟩] := by
  classical
  have next : ∀ x : { x : PoolState W.State // Pool.Reachable W s num x }, ∃ e : Ev, ∃ y : { y : PoolState W.State // Pool.Reachable W s num y },
      Pool.Step W s num x.1 e y.1 ∧ ((∃ e p', e ≠ .around ∧ Pool.Step W s num x.1 e p') → e ≠ .around) ∧
      ((¬ ∃ e p', e ≠ .around ∧ Pool.Step W s num x.1 e p') → y.1.conns = x.1.conns ++ [⟨(arriving x.1).1, (arriving x.1).2, none⟩]) := by
    intro x
    by_cases hq : ∃ e p', e ≠ .around ∧ Pool.Step W s num x.1 e p'
    · obtain ⟨e, p', he, hp⟩ := id hq
      exact ⟨e, ⟨p', .step x.2 hp⟩, hp, fun _ => he, fun h => absurd hq h⟩
    · exact ⟨.around, ⟨_, .step x.2 (.come _ _ (ha x.1))⟩, .come _ _ (ha x.1), fun h => absurd h hq, fun _ => rfl⟩
  choose w f hf using next
  let g : Nat → { x : PoolState W.State // Pool.Reachable W s num x } := fun n => n.rec ⟨p, hR⟩ fun _ x => f x
  have hstep : ∀ n, Pool.Step W s num (g n).1 (w (g n)) (g (n + 1)).1 := fun n => (hf (g n)).1
  have hE : EndlessPool W s num (fun n => (g n).1) (fun n => w (g n)) := ⟨hR, fun n => .inr (hstep n)⟩
  have done : ∀ n, ∃ m, n ≤ m ∧ ¬ ∃ e p', e ≠ .around ∧ Pool.Step W s num (g m).1 e p' := by
    intro n
    by_contra hno
    push Not at hno
    have all : ∀ p : PoolState W.State, ∀ d, (g (n + d)).1 ≠ p := by
      intro p
      induction p using (C113_terminates (W := W) (s := s) (num := num)).induction with
      | _ p ih =>
        rintro d rfl
        have := (hf (g (n + d))).2.1 (hno (n + d) (by omega))
        exact ih (g (n + d + 1)).1 ⟨0, _, this, hstep (n + d)⟩ (d + 1) rfl
    exact all _ 0 rfl
  refine ⟨fun n => (g n).1, fun n => w (g n), rfl, hE, fun e he hi => ?_, fun n => ?_⟩
  · exfalso
    obtain ⟨n, -, p', hp⟩ := hi 0
    obtain ⟨m, hm, hq⟩ := done n
    obtain ⟨q1, q2⟩ := quiet_pool (g m).2 hq
    obtain ⟨m', hm', p'', hp'⟩ := hi m
    cases e with
    | around => exact he rfl
    | take k =>
      obtain ⟨c, hc⟩ : ∃ c, (g n).1.conns[k]? = some c := by
        dsimp only at hp
        generalize (g n).1 = x at hp
        cases hp with
        | now hk => exact ⟨_, hk⟩
        | enter hk => exact ⟨_, hk⟩
      have keep : ∀ d, ∃ c', (g (n + d)).1.conns[k]? = some c' := by
        intro d
        induction d with
        | zero => exact ⟨c, hc⟩
        | succ d ih =>
          obtain ⟨c', h1⟩ := ih
          obtain ⟨c'', h2, -⟩ := conn_step (hstep (n + d)) h1
          exact ⟨c'', h2⟩
      obtain ⟨c', h1⟩ := keep (m - n)
      rw [show n + (m - n) = m by omega] at h1
      obtain ⟨j, hj⟩ := Option.ne_none_iff_exists'.1 (q2 k c' h1)
      have keep' : ∀ d, ∃ c', (g (m + d)).1.conns[k]? = some c' ∧ c'.taken = some j := by
        intro d
        induction d with
        | zero => exact ⟨c', h1, hj⟩
        | succ d ih =>
          obtain ⟨c', g1, g2⟩ := ih
          obtain ⟨c'', k1, -, -, -, k5, -⟩ := conn_step (hstep (m + d)) g1
          exact ⟨c'', k1, k5 j g2⟩
      obtain ⟨c'', h2, h3⟩ := keep' (m' - m)
      rw [show m + (m' - m) = m' by omega] at h2
      dsimp only at hp'
      generalize (g m').1 = x at hp' h2
      cases hp' with
      | now hk => rw [hk] at h2; cases h2; cases h3
      | enter hk => rw [hk] at h2; cases h2; cases h3
    | go id =>
      have hin : ∀ {x y : PoolState W.State}, Pool.Reachable W s num x → Pool.Step W s num x (.go id) y → InProgress x.site.conf id := by
        intro x y hx hs
        cases hs with
        | work hb => exact ((poolOk hx).busy _ _ hb).2
        | leave hb => exact ((poolOk hx).busy _ _ hb).2
      obtain ⟨pc, h1, -⟩ := hin (g n).2 hp
      have hS := endless_of_site (site_of_pool hE)
      obtain ⟨q, h2⟩ := endless_keep hS h1 (m - n)
      rw [show n + (m - n) = m by omega] at h2
      have h3 : (g m).1.site.conf.threads[id]? = some .finished := by
        have h2 : (g m).1.site.conf.threads[id]? = some q := h2
        rw [h2]
        by_contra hne
        exact q1 id ⟨q, h2, fun e => hne (by rw [e])⟩
      have h4 := endless_finished hS h3 (m' - m)
      rw [show m + (m' - m) = m' by omega] at h4
      obtain ⟨q', h5, h6⟩ := hin (g m').2 hp'
      have h4 : (g m').1.site.conf.threads[id]? = some .finished := h4
      rw [h4] at h5
      cases h5
      exact h6 rfl
  · obtain ⟨m, hm, hq⟩ := done n
    exact ⟨m, hm, (hf (g m)).2.2 hq⟩

end

/-! ### Concrete cases -/

/-- Requests keep coming to the four workers of a concrete site in a peaceful world: each of them is answered. -/
example : ∃ g who, EndlessPool exSiteWorld exSite workers g who ∧ FairPool exSiteWorld exSite workers g who ∧
    (∀ n, ∃ m, n ≤ m ∧ (g (m + 1)).conns.length = (g m).conns.length + 1) ∧
    ∀ n k, k < (g n).conns.length → ∃ N resp, n ≤ N ∧ Pool.Answered exSite (g N) k resp := by
  obtain ⟨g, who, -, hE, hf, hr⟩ := C113_runs (W := exSiteWorld) (s := exSite) (num := workers) (.init (fun _ => str% "start") 7)
    (fun p => (p.conns.length % 4, if p.conns.length % 2 = 0 then exCompareRequest else ⟨str% "GET", utf8 (str% "/branches"), utf8 (str% "repo=repo&fetch=true")⟩))
    (fun p => Nat.mod_lt _ (by decide))
  refine ⟨g, who, hE, hf, fun n => ?_, fun n k hk => C113_answered rfl exSite_peaceful rfl hE hf hk⟩
  obtain ⟨m, h1, h2⟩ := hr n
  exact ⟨m, h1, by rw [h2]; simp⟩

/-- The request for the badge with the version. -/
def exBadgeRequest : HttpRequest := ⟨str% "GET", utf8 (str% "/version/badge"), []⟩

/-- C113 (finding): four comparisons keep the whole server from answering, even from giving the badge with the version, until one of them is over. -/
theorem C113_example : ∃ p : PoolState exSiteWorld.State, Pool.Reachable exSiteWorld exSite workers p ∧
    (∀ w, w < workers → ∃ id, p.busy w = some id ∧ InProgress p.site.conf id) ∧ p.conns[4]? = some ⟨0, exBadgeRequest, none⟩ ∧
    (∃ resp, exSite.accept exBadgeRequest = .answer resp) ∧ ∀ e p', Pool.Step exSiteWorld exSite workers p e p' → ∀ k, e ≠ .take k := by
  obtain ⟨p, h1, h2, h3, h4⟩ := C113_fills (W := exSiteWorld) (num := workers) exCompare_accepted exBadgeRequest (by decide) (fun _ => str% "start") 7
  refine ⟨p, h1, h2, h3, ⟨⟨200, str% "image/svg+xml", []⟩, ?_⟩, h4⟩
  rw [Site.accept, show route exBadgeRequest = some .badge by decide +kernel]
  rfl

end Swc
