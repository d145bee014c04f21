/-
Many requests at once: what the server answers while it works on any number of other requests.
-/
import Verif.Props.Click
import Verif.Props.MergeRequests
import Verif.Spec.Crowd

namespace Swc

open Spec Prog

variable {W : World}

/-- What is known of everything that happens after a moment. -/
structure Kept (c0 : Config W.State) (I : W.State → Prop) (a : CompareArgs) (c : Config W.State) : Prop where
  repo : I (c.sh.repo a.repo)
  clock : c0.sh.clock ≤ c.sh.clock
  running : ∀ (i : Nat) ho st p, c.threads[i]? = some (.running a ho st p) → I st
  store : ∀ (i : Nat) ho st fi r, c.threads[i]? = some (.store a ho st fi r) → I st
  computed : ∀ id ho st fi r t, Entry.computed id a ho st fi r t ∈ c.sh.log → Entry.computed id a ho st fi r t ∈ c0.sh.log ∨ I st
  answered : ∀ id b x cached t, Entry.answered id b x cached t ∈ c.sh.log → Entry.answered id b x cached t ∈ c0.sh.log ∨ c0.sh.clock ≤ t

theorem steady_step {α : Type} {I : W.State → Prop} {N : Str → Prop} (hI : Steady W N I) {p p' : Prog α} (hp : OnlyGit (ServerGit N) p) {s s' : W.State}
    (h : p.step W s = some (p', s')) (hs : I s) : I s' := by
  cases p with
  | done r => cases h
  | git args k => cases h; exact hI _ _ hs hp.1
  | glob p k => cases h; exact hs
  | read p k => cases h; exact hs

theorem serverGit_compare {N : Str → Prop} {pull : Prop} {old new : Str} (hN : N old ∧ N new) (args : List Str) (h : CompareGit pull old new args) :
    ServerGit N args := by
  obtain ⟨rev, hr, h⟩ := h
  exact .inl ⟨old, new, hN.1, hN.2, rev, hr, h.imp (fun h => ⟨trivial, h.2⟩) id⟩

theorem serverGit_branch {N : Str → Prop} {f : Prop} (args : List Str) (h : BranchGit f args) : ServerGit N args := .inr (h.imp (fun h => ⟨trivial, h.2⟩) id)

/-- What a request asks to be compared. -/
def Pc.args {σ : Type} : Pc σ → Option CompareArgs
  | .scan next _ | .scanBoth next _ => next
  | .lookup a | .looking a | .wantMutex a | .check a | .wantShard a | .running a _ _ _ | .store a _ _ _ _ => some a
  | .branchWant _ _ | .branching _ _ | .finished => none

theorem args_step {srv : Server} {id : Nat} {pc pc' : Pc W.State} {s s' : Shared W.State} (h : Act1 W srv id pc s pc' s') {a : CompareArgs}
    (ha : pc'.args = some a) : pc.args = some a := by
  cases h with
  | @scanEnd next i s hi => cases next <;> exact ha
  | _ => first | exact ha | nomatch ha

/-- All that the requests ask to be compared in a repository are revisions in `N`. -/
def AsksFor (N : Str → Prop) (repo : Str) (c : Config W.State) : Prop :=
  ∀ (i : Nat) pc a, c.threads[i]? = some pc → pc.args = some a → a.repo = repo → N (trim a.old) ∧ N (trim a.new)

theorem args_inbox {s : Site} {st : SiteState W.State} (h : s.Reachable W st) :
    ∀ (i : Nat) pc a, st.conf.threads[i]? = some pc → pc.args = some a → ∃ r x, (r, x) ∈ st.inbox ∧ s.accept r = .run (.compare a) := by
  induction h with
  | init repo clock => intro i pc a h; simp [initial] at h
  | step h hs ih =>
    intro i pc a hi ha
    cases hs with
    | thread j hj =>
      obtain ⟨pc0, pc', s', h0, hact, rfl⟩ := hj
      have hi : (List.set _ j pc')[i]? = some pc := hi
      rw [List.getElem?_set] at hi
      split at hi
      · split at hi
        · cases hi
          exact ih j pc0 a h0 (args_step hact ha)
        · cases hi
      · exact ih i pc a hi ha
    | now r hr =>
      obtain ⟨r', x, hm, e⟩ := ih i pc a hi ha
      exact ⟨r', x, List.mem_append_left _ hm, e⟩
    | tick n => exact ih i pc a hi ha
    | @later r req hr =>
      have hi : (List.append _ [begin req])[i]? = some pc := hi
      rw [List.append_eq] at hi
      rw [List.getElem?_append] at hi
      split at hi
      · obtain ⟨r', x, hm, e⟩ := ih i pc a hi ha
        exact ⟨r', x, List.mem_append_left _ hm, e⟩
      · rw [List.getElem?_singleton] at hi
        split at hi
        · cases hi
          refine ⟨r, _, List.mem_append_right _ (List.mem_singleton.2 rfl), ?_⟩
          cases req with
          | compare a' => cases ha; exact hr
          | branches => nomatch ha
          | list => nomatch ha
        · cases hi

theorem accept_compares {s : Site} {r : HttpRequest} {a : CompareArgs} (h : s.accept r = .run (.compare a)) :
    Requests r (str% "/compare") ∧ requestArgs s.u s.ent r.query = some a := by
  unfold Site.accept at h
  generalize hr : route r = h0 at h
  have key : h0 = some .compare → Requests r (str% "/compare") := fun e => (C89_route r (h := .compare) rfl).1 (hr.trans e)
  rcases h0 with _ | h0
  · nomatch h
  cases h0 with
  | compare =>
    refine ⟨key rfl, ?_⟩
    dsimp only at h
    generalize requestArgs s.u s.ent r.query = o at h
    cases o <;> cases h
    rfl
  | branches =>
    dsimp only at h
    generalize parseBranchQuery s.u r.query = o at h
    rcases o with _ | ⟨x, y⟩ <;> cases h
  | version =>
    dsimp only at h
    generalize parseVersionQuery s.u r.query = o at h
    cases o <;> cases h
  | _ => cases h

theorem asksFor {s : Site} {st : SiteState W.State} (h : s.Reachable W st) {repo : Str} {N : Str → Prop} (hc : Company s repo N st.inbox) :
    AsksFor N repo st.conf := by
  intro i pc a hi ha hr
  obtain ⟨r, x, hm, e⟩ := args_inbox h i pc a hi ha
  obtain ⟨h1, h2⟩ := accept_compares e
  exact hc r x a hm h1 h2 hr

/-- The state of a repository after a step of some request. -/
theorem steady_act {srv : Server} {I : W.State → Prop} {N : Str → Prop} (hI : Steady W N I) {id : Nat} {pc pc' : Pc W.State} {s s' : Shared W.State}
    (ha : Act1 W srv id pc s pc' s') (hk : KnownGit pc) {r : Str}
    (hN : ∀ a, pc.args = some a → a.repo = r → N (trim a.old) ∧ N (trim a.new)) (h : I (s.repo r)) : I (s'.repo r) := by
  have upd : ∀ {b : Str} {w : W.State}, (b = r → I w) → I (updAt s.repo b w r) := by
    intro b w hw
    unfold updAt
    split
    · rename_i e; exact hw e.symm
    · exact h
  cases ha with
  | scanDrop => split <;> exact h
  | scanEnd hi => split <;> exact h
  | work hs => exact upd (fun e => steady_step hI (onlyGit_mono (serverGit_compare (hN _ rfl e)) hk) hs (e ▸ h))
  | branchWork hs =>
    obtain ⟨f, hk⟩ := hk
    exact upd (fun e => steady_step hI (onlyGit_mono serverGit_branch hk) hs (e ▸ h))
  | _ => exact h

/-- A new answer carries the time. -/
theorem answered_of_step {srv : Server} {id : Nat} {pc pc' : Pc W.State} {s s' : Shared W.State} (ha : Act1 W srv id pc s pc' s')
    {id' b x cached t} (hm : Entry.answered id' b x cached t ∈ s'.log) : Entry.answered id' b x cached t ∈ s.log ∨ t = s.clock := by
  cases ha with
  | scanDrop => split at hm <;> exact .inl hm
  | scanEnd hi => split at hm <;> exact .inl hm
  | unknown h => rcases List.mem_append.1 hm with h | h
                 · exact .inl h
                 · simp at h; exact .inr h.2.2.2.2
  | hit h hf => rcases List.mem_append.1 hm with h | h
                · exact .inl h
                · simp at h; exact .inr h.2.2.2.2
  | lockPoisoned => rcases List.mem_append.1 hm with h | h
                    · exact .inl h
                    · simp at h
  | storeOk => rcases List.mem_append.1 hm with h | h
               · exact .inl h
               · simp at h; exact .inr h.2.2.2.2
  | storeErr => rcases List.mem_append.1 hm with h | h
                · exact .inl h
                · simp at h; exact .inr h.2.2.2.2
  | storePanic => rcases List.mem_append.1 hm with h | h
                  · exact .inl h
                  · simp at h
  | branchOk => rcases List.mem_append.1 hm with h | h
                · exact .inl h
                · simp at h
  | branchErr => rcases List.mem_append.1 hm with h | h
                 · exact .inl h
                 · simp at h
  | branchPanic => rcases List.mem_append.1 hm with h | h
                   · exact .inl h
                   · simp at h
  | _ => exact .inl hm

theorem kept_step {srv : Server} {c0 c c' : Config W.State} {I : W.State → Prop} {N : Str → Prop} (hI : Steady W N I) {a : CompareArgs} (hR : Reachable W srv c)
    (hN : AsksFor N a.repo c) (h : Kept c0 I a c) (hs : Step W srv c c') : Kept c0 I a c' := by
  cases hs with
  | tick n => exact ⟨h.repo, Nat.le_trans h.clock (Nat.le_add_right _ _), h.running, h.store, h.computed, h.answered⟩
  | arrive r =>
    have hin : ∀ (i : Nat) pc, (c.threads ++ [begin r])[i]? = some pc → c.threads[i]? = some pc ∨ pc = begin r := by
      intro i pc hi
      rw [List.getElem?_append] at hi
      split at hi
      · exact .inl hi
      · rw [List.getElem?_singleton] at hi
        split at hi
        · exact .inr (Option.some.inj hi).symm
        · cases hi
    refine ⟨h.repo, h.clock, fun i ho st p hi => ?_, fun i ho st fi r hi => ?_, h.computed, h.answered⟩
    · rcases hin i _ hi with hi | hi
      · exact h.running i ho st p hi
      · cases r <;> cases hi
    · rcases hin i _ hi with hi | hi
      · exact h.store i ho st fi _ hi
      · rename_i q _; cases q <;> cases hi
  | thread j hj =>
    obtain ⟨pc0, pc', s', h0, ha, rfl⟩ := hj
    have hin : ∀ (i : Nat) pc, (c.threads.set j pc')[i]? = some pc → c.threads[i]? = some pc ∨ pc = pc' := by
      intro i pc hi
      rw [List.getElem?_set] at hi
      split at hi
      · split at hi
        · exact .inr (Option.some.inj hi).symm
        · cases hi
      · exact .inl hi
    refine ⟨steady_act hI ha (knownGit hR j pc0 h0) (fun a' h' => hN j pc0 a' h0 h') h.repo, ?_, fun i ho st p hi => ?_, fun i ho st fi r hi => ?_, fun id ho st fi r t hm => ?_,
      fun id b x cached t hm => ?_⟩
    · show _ ≤ s'.clock
      rw [clock_step ha]
      exact h.clock
    · rcases hin i _ hi with hi | rfl
      · exact h.running i ho st p hi
      · generalize hpc : (Pc.running a ho st p : Pc W.State) = pc' at ha
        cases ha with
        | permit ho' hw => cases hpc; exact h.repo
        | work hw => cases hpc; exact h.running _ _ _ _ h0
        | @scanEnd next i s hi => cases next <;> cases hpc
        | _ => cases hpc
    · rcases hin i _ hi with hi | rfl
      · exact h.store i ho st fi r hi
      · generalize hpc : (Pc.store a ho st fi r : Pc W.State) = pc' at ha
        cases ha with
        | ended hd => cases hpc; exact h.running _ _ _ _ h0
        | @scanEnd next i s hi => cases next <;> cases hpc
        | _ => cases hpc
    · rcases computed_of_step ha hm with hm | ⟨rfl, rfl, rfl⟩
      · exact h.computed id ho st fi r t hm
      · exact .inr (h.store _ _ _ _ _ h0)
    · rcases answered_of_step ha hm with hm | rfl
      · exact h.answered id b x cached t hm
      · exact .inr h.clock

theorem inbox_step {s : Site} {st st' : SiteState W.State} (h : s.Step W st st') : st.inbox <+: st'.inbox := by
  cases h with
  | thread => exact List.prefix_refl _
  | tick => exact List.prefix_refl _
  | now => exact List.prefix_append _ _
  | later => exact List.prefix_append _ _

theorem kept {s : Site} {st0 st : SiteState W.State} {I : W.State → Prop} {N : Str → Prop} (hI : Steady W N I) {a : CompareArgs} (hR : s.Reachable W st0)
    (h0 : I (st0.conf.sh.repo a.repo)) (hu : NotUnderWay st0.conf a) (hl : Ahead W s st0 st) (hc : Company s a.repo N st.inbox) : Kept st0.conf I a st.conf := by
  induction hl with
  | refl => exact ⟨h0, Nat.le_refl _, fun i ho st p hi => absurd rfl ((hu i _ hi).1 ho st p), fun i ho st fi r hi => absurd rfl ((hu i _ hi).2 ho st fi r),
      fun _ _ _ _ _ _ h => .inl h, fun _ _ _ _ _ h => .inl h⟩
  | @step st1 st2 hl hs ih =>
    have hc1 : Company s a.repo N st1.inbox := fun r x a' hm => hc r x a' ((inbox_step hs).subset hm)
    have hR1 := reachable_ahead hR hl
    have hk := fun {c'} => kept_step (c' := c') hI (sound hR1).reach (asksFor hR1 hc1) (ih hc1)
    cases hs with
    | thread i h => exact hk (.thread i h)
    | now r h => exact ih hc1
    | later r h => exact hk (.arrive _)
    | tick n => exact hk (.tick n)

/-- The comparison behind an answer to a request that came after a moment was begun after it. -/
theorem behind {s : Site} {st0 stn : SiteState W.State} {I : W.State → Prop} {N : Str → Prop} (hI : Steady W N I) {a : CompareArgs} (hR : s.Reachable W st0)
    (h0 : I (st0.conf.sh.repo a.repo)) (hu : NotUnderWay st0.conf a) (hn : NotRecent st0.conf a) (hl : Ahead W s st0 stn) (hco : Company s a.repo N stn.inbox)
    {id : Nat} (hid : st0.conf.threads.length ≤ id)
    {x : Except Str (List ExtrinsicDiff)} {cached : Bool} {t : Nat} (hm : Entry.answered id a x cached t ∈ stn.conf.sh.log) (hk : s.srv.repos a.repo ≠ none) :
    ∃ ho st fi r, I st ∧ Alone W s.srv ho a st r fi ∧ ((∃ v, r = .ok v ∧ x = .ok v) ∨ ∃ m, r = .err m ∧ x = .error m) := by
  have hc := (sound (reachable_ahead hR hl)).reach
  have hK := kept hI hR h0 hu hl hco
  replace hR := (sound hR).reach
  have hnew : ∀ e : Entry W.State, ends id e = true → e ∉ st0.conf.sh.log := fun e he hme => by
    have := mem_own hme he
    rw [reachable_threads_own hR hid] at this
    cases this
  have ht : st0.conf.sh.clock ≤ t := (hK.answered _ _ _ _ _ hm).resolve_left (hnew _ (decide_eq_true rfl))
  obtain ⟨pre, post, hsp⟩ := List.append_of_mem hm
  cases cached with
  | true =>
    obtain ⟨v, rfl, id', ho, st, fi, t', hm', ht1, ht2⟩ := C54_cached hc hsp
    have hm'' : Entry.computed id' a ho st fi (.ok v) t' ∈ stn.conf.sh.log := by rw [hsp]; exact List.mem_append_left _ hm'
    refine ⟨ho, st, fi, .ok v, ?_, C55_result hc hm'', .inl ⟨v, rfl, rfl⟩⟩
    rcases hK.computed _ _ _ _ _ _ hm'' with h | h
    · have := hn _ _ _ _ _ _ h
      omega
    · exact h
  | false =>
    rcases C54_not_cached hc hsp with ⟨h, -⟩ | ⟨pre', ho, st, fi, res, hpre, hres⟩
    · exact absurd h hk
    · have hm'' : Entry.computed id a ho st fi res t ∈ stn.conf.sh.log := by rw [hsp, hpre]; simp
      refine ⟨ho, st, fi, res, ?_, C55_result hc hm'', hres⟩
      rcases hK.computed _ _ _ _ _ _ hm'' with h | h
      · have := getElem?_lt (unfinished_unrecorded hR h)
        omega
      · exact h

/-- C93: many requests at once, what is answered.  Whatever other requests there are and however the server works: if it can compare two revisions from now
on, then every answer to a request for comparing them that comes from now on is a page that shows the report on their files, whether computed or cached. -/
theorem C93_right {s : Site} {m : Machine} {args : List Str} {cmd : ServerCmd} (hS : s.Started m args cmd) (hb : s.srv.build = .release)
    (hsyn : s.srv.env.syn = rustSyn) {st0 st : SiteState W.State} (hR : s.Reachable W st0) (hst : Ahead W s st0 st)
    {r : HttpRequest} (hreq : Requests r (str% "/compare")) {a : CompareArgs} (ha : requestArgs s.u s.ent r.query = some a)
    {N : Str → Prop} {org : Str} {olds news : List Located} (hC : Comparable W s m cmd st0.conf N a org olds news) (hco : Company s a.repo N st.inbox)
    {k : Nat} {x : Response ⊕ Nat} (hk : st.inbox[k]? = some (r, x)) (hnew : st0.inbox.length ≤ k) {resp : Response} (h : s.Replied st k resp) :
    ∃ all diff page, resp = ⟨200, textHtml, page⟩ ∧ ShowsReport s.srv.rx a org olds news all diff page := by
  obtain ⟨hrepo, horg, hn, hu, hdot, ⟨I, hI, h0, hrev⟩, hrx, hsz, hin, hr, h1, h2, h3, h4⟩ := hC
  obtain ⟨-, -, hs⟩ := C89_serves hS a.repo
  obtain ⟨org', e1, hkn, ho⟩ := hs hrepo
  rw [horg] at e1
  cases e1
  have hbare : BareNames s.names := fun n hn => hr n ((C89_serves hS n).1.1 hn)
  have hshown : ∀ {ho : HashOrder} {st1 fi : W.State} {res : Res (List ExtrinsicDiff)}, I st1 → Alone W s.srv ho a st1 res fi →
      ∃ all diff, res = .ok diff ∧ ∀ cached, ∃ page,
        compareResponse .release s.version s.names (.ok a) (some org) (.ok (diff, cached)) = .ok ⟨200, textHtml, page⟩ ∧
        ShowsReport s.srv.rx a org olds news all diff page := by
    intro ho st1 fi res hi hal
    obtain ⟨G1, s1, files1, G2, s2, files2, c1, l1, f1, c2, l2, f2⟩ := hrev st1 hi
    obtain ⟨all, diff, e1, -, e2⟩ :=
      Gen.outcome_shown_any hsyn hkn hdot c1 l1 f1 c2 l2 f2 hrx hsz hin (version := s.version) hbare h1 h2 h3 h4 hal
    exact ⟨all, diff, e1, e2⟩
  have hk' : s.srv.repos a.repo ≠ none := by rw [hkn]; exact nofun
  rcases compare_core (reachable_ahead hR hst) hS hk h hreq ha with ⟨h, -⟩ | ⟨id, msg, t, rfl, hl, -⟩ |
    ⟨id, diff, cached, t, org', rfl, hl, -, horg', hst', hct, hpage⟩
  · exact absurd hrepo h
  · obtain ⟨ho, st1, fi, res, hi, hal, ⟨v, _, h⟩ | ⟨m, rfl, _⟩⟩ := behind hI hR h0 hu hn hst hco (ids_ahead hst hk hnew) hl hk'
    · cases h
    · obtain ⟨_, _, h, _⟩ := hshown hi hal
      cases h
  · obtain ⟨ho, st1, fi, res, hi, hal, ⟨v, rfl, h⟩ | ⟨m, _, h⟩⟩ := behind hI hR h0 hu hn hst hco (ids_ahead hst hk hnew) hl hk'
    · cases h
      obtain ⟨all, diff', e, hpg⟩ := hshown hi hal
      cases e
      obtain ⟨page, k1, k2⟩ := hpg cached
      rw [horg] at horg'
      cases horg'
      rw [hb] at hpage
      have k1 : (comparePage .release s.version s.names org a diff cached).map (fun body => (⟨200, textHtml, body⟩ : Response)) = .ok ⟨200, textHtml, page⟩ := k1
      rw [hpage] at k1
      cases k1
      exact ⟨all, diff, _, by cases resp; simp_all, k2⟩
    · cases h

/-- C93: many requests at once, that they are answered.  In a peaceful world, in every run in which finally no further requests come, all requests that came
from the moment `st0` on are answered: those that can be compared with pages that show their reports. -/
theorem C93_everyone {s : Site} {m : Machine} {args : List Str} {cmd : ServerCmd} (hS : s.Started m args cmd) (hb : s.srv.build = .release)
    (hsyn : s.srv.env.syn = rustSyn) (hp : Peaceful W s.srv.env.syn) {st0 : SiteState W.State} (hR : s.Reachable W st0) {g : Nat → SiteState W.State}
    (hst : Ahead W s st0 (g 0)) (h : Undisturbed W s g) :
    ∃ n, ∀ k r x, (g 0).inbox[k]? = some (r, x) → (∃ resp, s.Replied (g n) k resp) ∧
      ∀ N a org olds news, st0.inbox.length ≤ k → Requests r (str% "/compare") → requestArgs s.u s.ent r.query = some a →
        Comparable W s m cmd st0.conf N a org olds news → Company s a.repo N (g 0).inbox →
        ∃ all diff page, s.Replied (g n) k ⟨200, textHtml, page⟩ ∧ ShowsReport s.srv.rx a org olds news all diff page := by
  obtain ⟨n, hn⟩ := C90_eventually hb hp (reachable_ahead hR hst) h
  have hahead : ∀ n, Ahead W s st0 (g n) := by
    intro n
    induction n with
    | zero => exact hst
    | succ n ih =>
      rcases h.step n with e | hs
      · rw [e]; exact ih
      · exact .step ih hs
  refine ⟨n, fun k r x hk => ?_⟩
  obtain ⟨resp, hresp⟩ := hn k (List.getElem?_eq_some_iff.1 hk).1
  refine ⟨⟨resp, hresp⟩, fun N a org olds news hnew hreq ha hC hco => ?_⟩
  obtain ⟨all, diff, page, rfl, hsh⟩ := C93_right hS hb hsyn hR (hahead n) hreq ha hC (by rw [h.alone]; exact hco) (by rw [h.alone]; exact hk) hnew hresp
  exact ⟨all, diff, page, hresp, hsh⟩

/-- What becomes of a request that asks for `a`, in whatever company: if it is sent at the moment `st0` or later, it is answered with the page. -/
def Spec.Served (W : World) (s : Site) (st0 : SiteState W.State) (N : Str → Prop) (r : HttpRequest) (a : CompareArgs) (org : Str) (olds news : List Located) : Prop :=
  ∀ g, Ahead W s st0 (g 0) → Undisturbed W s g → Company s a.repo N (g 0).inbox → ∀ k x, st0.inbox.length ≤ k → (g 0).inbox[k]? = some (r, x) →
    ∃ n all diff page, s.Replied (g n) k ⟨200, textHtml, page⟩ ∧ ShowsReport s.srv.rx a org olds news all diff page

theorem served {s : Site} {m : Machine} {args : List Str} {cmd : ServerCmd} (hS : s.Started m args cmd) (hb : s.srv.build = .release)
    (hsyn : s.srv.env.syn = rustSyn) (hp : Peaceful W s.srv.env.syn) {st0 : SiteState W.State} (hR : s.Reachable W st0) {q : Bytes} {a : CompareArgs}
    (ha : requestArgs s.u s.ent q = some a) {N : Str → Prop} {org : Str} {olds news : List Located} (hC : Comparable W s m cmd st0.conf N a org olds news) :
    Served W s st0 N ⟨str% "GET", utf8 (str% "/compare"), q⟩ a org olds news := by
  intro g hst h hco k x hk hi
  obtain ⟨n, hn⟩ := C93_everyone hS hb hsyn hp hR hst h
  exact ⟨n, (hn k _ x hi).2 N a org olds news hk (C89_plain (h := .compare) rfl q) ha hC hco⟩

/-- C93: the button of the start page, in whatever company. -/
theorem C93_button {s : Site} {m : Machine} {args : List Str} {cmd : ServerCmd} (hS : s.Started m args cmd) (hb : s.srv.build = .release)
    (hsyn : s.srv.env.syn = rustSyn) (hp : Peaceful W s.srv.env.syn) {st0 : SiteState W.State} (hR : s.Reachable W st0)
    {store : Str → Option Str} {tr : List PageEvent} {p : StartPage} (hv : Visit s.names store tr p) {repo old new pattern : Str}
    (hpr : p.repo = some repo) (hpo : p.first = some old) (hpn : p.second = some new) (hpp : pathPresets.lookup repo = some pattern)
    (u1 : UrlSafe old) (u2 : UrlSafe new) (p1 : '+' ∉ old) (p2 : '+' ∉ new) {a : CompareArgs}
    (ha : a = { old := old, new := new, repo := repo, pathPattern := pattern, extrinsic := none, pallet := none, ignoreErrors := true, threshold := 10,
                unit := .time, gitPull := none, method := .asymptotic })
    {N : Str → Prop} {org : Str} {olds news : List Located} (hC : Comparable W s m cmd st0.conf N a org olds news) :
    p.shownRepo = repo ∧ p.shownFirst = old ∧ p.shownSecond = new ∧ ∃ q, p.compare = some q ∧
      Served W s st0 N ⟨str% "GET", utf8 (str% "/compare"), q⟩ a org olds news := by
  obtain ⟨e1, e2, e3, q, hq', hargs⟩ := C83_compare s.u s.ent hv hpr hpo hpn hpp u1 u2 p1 p2
  rw [← ha] at hargs
  exact ⟨e1, e2, e3, q, hq', served hS hb hsyn hp hR hargs hC⟩

/-- C93: the controls of the result page, in whatever company.  The page for the query `q` is open, which asks for `a0`; a control is set to another value,
which asks for `asked`.  Then the page for this is opened (up to HTML entities). -/
theorem C93_control {s : Site} {m : Machine} {args : List Str} {cmd : ServerCmd} (hS : s.Started m args cmd) (hb : s.srv.build = .release)
    (hsyn : s.srv.env.syn = rustSyn) (hp : Peaceful W s.srv.env.syn) {st0 : SiteState W.State} (hR : s.Reachable W st0) {q : Bytes} {a0 asked a : CompareArgs}
    {k v : Str} (h : parseQuery s.u q = some a0) (he : Edited a0 k v asked) (hv : v ≠ [])
    (ha : a = { asked with new := s.ent.decode asked.new, old := s.ent.decode asked.old, pathPattern := s.ent.decode asked.pathPattern })
    {N : Str → Prop} {org : Str} {olds news : List Located} (hC : Comparable W s m cmd st0.conf N a org olds news) :
    ∃ q', urlRedirect s.u q k v = some q' ∧ Served W s st0 N ⟨str% "GET", utf8 (str% "/compare"), q'⟩ a org olds news := by
  obtain ⟨q', h1, h2⟩ := C70_control s.u h he hv
  refine ⟨q', h1, served hS hb hsyn hp hR ?_ hC⟩
  unfold requestArgs
  rw [h2, ha]
  rfl

/-- C93: double clicks on merge requests, in whatever company. -/
theorem C93_merge_request {s : Site} {m : Machine} {args : List Str} {cmd : ServerCmd} (hS : s.Started m args cmd) (hb : s.srv.build = .release)
    (hsyn : s.srv.env.syn = rustSyn) (hp : Peaceful W s.srv.env.syn) {st0 : SiteState W.State} (hR : s.Reachable W st0)
    {owner repo pattern : Str} {mr : MergeRequest} {row : MrRow} (hr : ShowsRequest owner mr row) (ho : Own owner mr)
    (hpp : pathPresets.lookup repo = some pattern) (u1 : UrlSafe mr.base) (u2 : UrlSafe mr.head) (p1 : '+' ∉ mr.base) (p2 : '+' ∉ mr.head)
    (h3 : ∀ c, mr.head.getLast? = some c → 0x20 < c.toNat) {a : CompareArgs}
    (ha : a = { old := mr.base, new := mr.head, repo := repo, pathPattern := pattern, extrinsic := none, pallet := none, ignoreErrors := true,
                threshold := 10, unit := .time, gitPull := none, method := .asymptotic })
    {N : Str → Prop} {org : Str} {olds news : List Located} (hC : Comparable W s m cmd st0.conf N a org olds news) :
    ∃ b q, row.doubleClick repo = .asks b q ∧ s.accept ⟨str% "GET", utf8 (str% "/branches"), b⟩ = .run (.branches repo true) ∧
      Served W s st0 N ⟨str% "GET", utf8 (str% "/compare"), q⟩ a org olds news := by
  obtain ⟨b, q, h1, h2, h3⟩ := (C85_click s.u s.ent hr hpp u1 u2 p1 p2 h3).1 ho
  rw [← ha] at h3
  refine ⟨b, q, h1, ?_, served hS hb hsyn hp hR h3 hC⟩
  unfold Site.accept
  rw [(C89_route _ (h := .branches) rfl).2 (C89_plain (h := .branches) rfl b)]
  dsimp only
  rw [h2]

/-! ### A concrete case -/

theorem exCrowd_peaceful : Peaceful exClickWorld exClickSite.srv.env.syn where
  files (s : Str) p c h := by
    refine C90_generated ?_
    have h : Except.ok (exGenText (if s = str% "v1" then str% "7_000_000" else str% "9_000000_u64")) = .ok c := h
    cases h
    split
    · exact ⟨_, _, exGen_7, by decide, exGen_ok (by decide)⟩
    · exact ⟨_, _, exGen_9, by decide, exGen_ok (by decide)⟩
  messages (s : Str) args out err utf8 ha h := by
    rcases ha with rfl | rfl <;> (cases h; try rfl)
  references s out err utf8 h := by cases h

theorem exCrowd_comparable (c : Config exClickWorld.State) (h1 : NotRecent c exClickArgs) (h2 : NotUnderWay c exClickArgs) :
    Comparable exClickWorld exClickSite exMachine exClickCmd c (fun _ => True) exClickArgs (str% "me") (exLocated 7000000) (exLocated 9000000) where
  repo := by decide
  origin := rfl
  notRecent := h1
  notUnderWay := h2
  pattern := by rw [← hasDotDot_iff]; decide +kernel
  states := ⟨fun _ => True, fun _ _ _ _ => trivial, trivial, fun s _ => exClick_revisions s⟩
  filters := by rintro q (h | h) <;> cases h
  sized := exGen_sized _ _
  files := exClick_inert
  names := ⟨by unfold BareNames; decide, by unfold Inert; decide, by unfold Inert; decide, by unfold Inert; decide, by unfold Inert; decide⟩

/-- What the script of the list of merge requests sends for the merge request of the branch `release` into `master`. -/
def exMergeRequest : MergeRequest := ⟨str% "Release", str% "me", str% "release", str% "master", some (str% "me"), 0⟩

/-- All hypotheses are met: two people press the button at the same time while a third one has the branches fetched; both get their pages. -/
theorem C93_example : ∃ q, mergeRequestQuery (str% "polkadot-sdk") (str% "master") (str% "release") = some q ∧
    ∃ inbox : List (HttpRequest × (Response ⊕ Nat)),
      inbox.map (·.1) = [⟨str% "GET", utf8 (str% "/compare"), q⟩, ⟨str% "GET", utf8 (str% "/branches"), branchQuery (str% "polkadot-sdk") true⟩,
        ⟨str% "GET", utf8 (str% "/compare"), q⟩] ∧
      (∃ g, Ahead exClickWorld exClickSite ⟨initial exClickWorld (fun _ => str% "start") 0, []⟩ (g 0) ∧ (g 0).inbox = inbox ∧
        Undisturbed exClickWorld exClickSite g) ∧
      ∀ g, Ahead exClickWorld exClickSite ⟨initial exClickWorld (fun _ => str% "start") 0, []⟩ (g 0) → (g 0).inbox = inbox →
        Undisturbed exClickWorld exClickSite g → ∀ k, k = 0 ∨ k = 2 → ∃ n all diff page, exClickSite.Replied (g n) k ⟨200, textHtml, page⟩ ∧
          ShowsReport exRegex exClickArgs (str% "me") (exLocated 7000000) (exLocated 9000000) all diff page := by
  have hrow : ShowsRequest (str% "me") exMergeRequest (mrRow exMergeRequest .plain (some exMergeRequest)) := by
    have := (C85_rows (str% "me") [exMergeRequest] (by decide)).1
    obtain ⟨l, hl, hf⟩ := this
    have e : l = [exMergeRequest] := List.perm_singleton.1 hl.perm
    subst e
    exact (List.forall₂_cons.1 hf).1
  have hst0 : exClickSite.Reachable exClickWorld ⟨initial exClickWorld (fun _ => str% "start") 0, []⟩ := .init _ _
  obtain ⟨b, q, e1, e2, hserved⟩ := C93_merge_request (W := exClickWorld) exClick_started rfl rfl exCrowd_peaceful hst0 hrow rfl rfl
    (urlSafe_of (by decide)) (urlSafe_of (by decide)) (by decide) (by decide) (by decide) (a := exClickArgs) rfl
    (exCrowd_comparable _ (by intro id ho st fi v t h; cases h) (by intro i pc h; cases h))
  obtain ⟨q', hq'⟩ : ∃ q', mergeRequestQuery (str% "polkadot-sdk") (str% "master") (str% "release") = some q' := ⟨_, rfl⟩
  have e3 : Click.asks (branchQuery (str% "polkadot-sdk") true) q' = .asks b q := by
    rw [← e1]
    show _ = (match mergeRequestQuery (str% "polkadot-sdk") (str% "master") (str% "release") with | none => Click.throws | some q => .asks _ q)
    rw [hq']
  cases e3
  have ha : exClickSite.accept ⟨str% "GET", utf8 (str% "/compare"), q⟩ = .run (.compare exClickArgs) := by
    have := (C85_click exClickSite.u exClickSite.ent hrow (repo := str% "polkadot-sdk") rfl (urlSafe_of (by decide)) (urlSafe_of (by decide)) (by decide)
      (by decide) (by decide)).1 rfl
    obtain ⟨b, q', f1, _, f2⟩ := this
    rw [e1] at f1
    cases f1
    unfold Site.accept
    rw [(C89_route _ (h := .compare) rfl).2 (C89_plain (h := .compare) rfl q)]
    dsimp only
    rw [f2]
    rfl
  refine ⟨q, hq', [(_, .inr 0), (_, .inr 1), (_, .inr 2)], rfl, ?_, ?_⟩
  · have s1 := Site.Step.later (W := exClickWorld) (st := ⟨initial exClickWorld (fun _ => str% "start") 0, []⟩) _ ha
    have hA := Ahead.step (.step (.step .refl s1) (.later _ e2)) (.later _ ha)
    obtain ⟨g, hg, hu⟩ := undisturbed_exists (reachable_ahead hst0 hA)
    exact ⟨g, hg ▸ hA, by rw [hg]; rfl, hu⟩
  · intro g hA hin hu k hk
    rcases hk with rfl | rfl
    · exact hserved g hA hu (fun _ _ _ _ _ _ _ => ⟨trivial, trivial⟩) 0 _ (Nat.zero_le _) (by rw [hin]; rfl)
    · exact hserved g hA hu (fun _ _ _ _ _ _ _ => ⟨trivial, trivial⟩) 2 _ (Nat.zero_le _) (by rw [hin]; rfl)

end Swc
