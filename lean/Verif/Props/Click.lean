/-
From the click to the page: what becomes of a request for a comparison that comes when nothing else is going on, in whatever order the server works.
-/
import Verif.Props.Alive
import Verif.Spec.Click

namespace Swc

open Spec Prog

variable {W : World}

/-- What has not changed since the request came. -/
structure Untouched (c0 : Config W.State) (a : CompareArgs) (s : Shared W.State) : Prop where
  log : s.log = c0.sh.log
  repo : s.repo a.repo = c0.sh.repo a.repo
  poisoned : s.poisoned = c0.sh.poisoned
  clock : c0.sh.clock ≤ s.clock

/-- How far the only unfinished request is. -/
def Solo (srv : Server) (c0 : Config W.State) (a : CompareArgs) : Pc W.State → Shared W.State → Prop
  | .scan next _, s => next = some a ∧ Untouched c0 a s
  | .scanBoth next _, s => next = some a ∧ Untouched c0 a s
  | .lookup b, s => b = a ∧ Untouched c0 a s
  | .looking b, s => b = a ∧ Untouched c0 a s
  | .wantMutex b, s => b = a ∧ Untouched c0 a s
  | .check b, s => b = a ∧ Untouched c0 a s
  | .wantShard b, s => b = a ∧ Untouched c0 a s
  | .running b ho st p, s => b = a ∧ st = c0.sh.repo a.repo ∧ p.run W (s.repo a.repo) = (doCompare srv ho a).run W st ∧ s.log = c0.sh.log ∧
      c0.sh.clock ≤ s.clock
  | .store b ho st fi r, s => b = a ∧ st = c0.sh.repo a.repo ∧ (r, fi) = (doCompare srv ho a).run W st ∧ s.log = c0.sh.log ∧ c0.sh.clock ≤ s.clock ∧
      s.repo a.repo = fi
  | .finished, s => ∃ ho fi r t, (r, fi) = (doCompare srv ho a).run W (c0.sh.repo a.repo) ∧ c0.sh.clock ≤ t ∧ s.repo a.repo = fi ∧
      s.log = c0.sh.log ++ [.computed c0.threads.length a ho (c0.sh.repo a.repo) fi r t, answerOf c0.threads.length a t r]
  | _, _ => False

theorem Untouched.locks {c0 : Config W.State} {a : CompareArgs} {s : Shared W.State} (h : Untouched c0 a s) (k : Nat) (f : Lock → Lock) :
    Untouched c0 a (s.setLock k f) := ⟨h.log, h.repo, h.poisoned, h.clock⟩

theorem solo_step {srv : Server} {c0 : Config W.State} {a : CompareArgs} (hk : srv.repos a.repo ≠ none) (hp : c0.sh.poisoned = false)
    (hn : NotRecent c0 a) {pc pc' : Pc W.State} {s s' : Shared W.State} (hsh : SharedOk W srv s)
    (ha : Act1 W srv c0.threads.length pc s pc' s') (h : Solo srv c0 a pc s) : Solo srv c0 a pc' s' := by
  cases ha with
  | scanTake hi hc => exact ⟨h.1, h.2.locks _ _⟩
  | scanDrop =>
    refine ⟨h.1, ?_⟩
    split
    · exact h.2
    · exact h.2.locks _ _
  | scanEnd hi =>
    obtain ⟨rfl, h⟩ := h
    refine ⟨rfl, ?_⟩
    split
    · exact h
    · exact h.locks _ _
  | lookup hc => exact ⟨h.1, h.2.locks _ _⟩
  | known hr => exact ⟨h.1, h.2.locks _ _⟩
  | unknown hr => obtain ⟨rfl, h⟩ := h; exact absurd hr hk
  | lock hm hpo => exact ⟨h.1, h.2.log, h.2.repo, h.2.poisoned, h.2.clock⟩
  | lockPoisoned hm hpo => rw [h.2.poisoned, hp] at hpo; cases hpo
  | hit hc hf =>
    obtain ⟨rfl, h⟩ := h
    obtain ⟨id, ho, st, fi, hm⟩ := hsh.cache _ _ _ (cacheGet_mem hc)
    have hle := hsh.times _ _ _ _ _ _ _ hm
    have := (isFresh_iff hle).1 hf
    rw [h.log] at hm
    have := hn _ _ _ _ _ _ hm
    have := h.clock
    omega
  | expired hc hf => exact ⟨h.1, h.2.log, h.2.repo, h.2.poisoned, h.2.clock⟩
  | miss hc => exact ⟨h.1, h.2.locks _ _⟩
  | permit ho hc =>
    obtain ⟨rfl, h⟩ := h
    exact ⟨rfl, h.repo, rfl, h.log, h.clock⟩
  | @work b ho st p p' s w hs =>
    obtain ⟨rfl, h1, h2, h3, h4⟩ := h
    refine ⟨rfl, h1, ?_, h3, h4⟩
    show p'.run W (updAt s.repo b.repo w b.repo) = _
    rw [show updAt s.repo b.repo w b.repo = w by simp [updAt], ← h2, run_step hs]
  | ended hd =>
    obtain ⟨rfl, h1, h2, h3, h4⟩ := h
    exact ⟨rfl, h1, h2, h3, h4, rfl⟩
  | storeOk =>
    obtain ⟨rfl, rfl, h2, h3, h4, h5⟩ := h
    refine ⟨_, _, _, _, h2, h4, h5, ?_⟩
    show s.log ++ _ = _
    rw [h3]; rfl
  | storeErr =>
    obtain ⟨rfl, rfl, h2, h3, h4, h5⟩ := h
    refine ⟨_, _, _, _, h2, h4, h5, ?_⟩
    show s.log ++ _ = _
    rw [h3]; rfl
  | storePanic =>
    obtain ⟨rfl, rfl, h2, h3, h4, h5⟩ := h
    refine ⟨_, _, _, _, h2, h4, h5, ?_⟩
    show s.log ++ _ = _
    rw [h3]; rfl
  | branchTake => exact h.elim
  | branchWork => exact h.elim
  | branchOk => exact h.elim
  | branchErr => exact h.elim
  | branchPanic => exact h.elim

theorem solo_tick {srv : Server} {c0 : Config W.State} {a : CompareArgs} {pc : Pc W.State} {s : Shared W.State} (n : Nat) (h : Solo srv c0 a pc s) :
    Solo srv c0 a pc { s with clock := s.clock + n } := by
  have key : Untouched c0 a s → Untouched c0 a { s with clock := s.clock + n } := fun h => ⟨h.log, h.repo, h.poisoned, Nat.le_add_right_of_le h.clock⟩
  cases pc with
  | running => exact ⟨h.1, h.2.1, h.2.2.1, h.2.2.2.1, Nat.le_add_right_of_le h.2.2.2.2⟩
  | store => exact ⟨h.1, h.2.1, h.2.2.1, h.2.2.2.1, Nat.le_add_right_of_le h.2.2.2.2.1, h.2.2.2.2.2⟩
  | finished => exact h
  | branchWant => exact h
  | branching => exact h
  | _ => exact ⟨h.1, key h.2⟩

theorem undisturbed_reachable {s : Site} {g : Nat → SiteState W.State} (hR : s.Reachable W (g 0)) (h : Undisturbed W s g) : ∀ n, s.Reachable W (g n) := by
  intro n
  induction n with
  | zero => exact hR
  | succ n ih =>
    rcases h.step n with e | hs
    · rw [e]; exact ih
    · exact .step ih hs

/-- The request proceeds alone. -/
theorem solo_run {s : Site} {c0 : Config W.State} (hq : AllDone c0) (hp : c0.sh.poisoned = false) {a : CompareArgs} (hk : s.srv.repos a.repo ≠ none)
    (hn : NotRecent c0 a) {g : Nat → SiteState W.State} (hR : s.Reachable W (g 0)) (h : Undisturbed W s g)
    (h0 : (g 0).conf = ⟨c0.threads ++ [begin (.compare a)], c0.sh⟩) (n : Nat) :
    ∃ pc, (g n).conf.threads = c0.threads ++ [pc] ∧ Solo s.srv c0 a pc (g n).conf.sh := by
  induction n with
  | zero => rw [h0]; exact ⟨_, rfl, rfl, rfl, rfl, rfl, Nat.le_refl _⟩
  | succ n ih =>
    obtain ⟨pc, ht, hs⟩ := ih
    rcases h.step n with e | hst
    · rw [e]; exact ⟨pc, ht, hs⟩
    · have hin : (g (n + 1)).inbox = (g n).inbox := (h.alone _).trans (h.alone _).symm
      have hr := (sound (undisturbed_reachable hR h n)).reach
      generalize g (n + 1) = x at hst hin
      cases hst with
      | now r h => exact absurd hin (by simp)
      | later r h => exact absurd hin (by simp)
      | tick d => exact ⟨pc, ht, solo_tick d hs⟩
      | thread i hi =>
        obtain ⟨pc0, pc', s', hi, ha, rfl⟩ := hi
        dsimp only
        rw [ht] at hi ⊢
        rcases Nat.lt_trichotomy i c0.threads.length with hlt | rfl | hgt
        · rw [List.getElem?_append_left hlt] at hi
          rw [hq i _ hi] at ha
          cases ha
        · rw [List.getElem?_append_right (Nat.le_refl _), Nat.sub_self] at hi
          cases hi
          exact ⟨pc', by simp, solo_step hk hp hn (inv_reachable hr).shared ha hs⟩
        · rw [List.getElem?_eq_none (by simp; omega)] at hi
          cases hi

/-- What becomes of a request that is accepted as a comparison. -/
theorem click_core {s : Site} {m : Machine} {args : List Str} {cmd : ServerCmd} (hS : s.Started m args cmd) (hb : s.srv.build = .release)
    (hsyn : s.srv.env.syn = rustSyn) {st : SiteState W.State} (hR : s.Reachable W st) (hq : AllDone st.conf) (hp : st.conf.sh.poisoned = false)
    {r : HttpRequest} {a : CompareArgs} (hacc : s.accept r = .run (.compare a)) (hrepo : a.repo ∈ cmd.repos) {org : Str}
    (horg : getOriginOrg (m.origin (cmd.root.join a.repo)) = .ok org) (hn : NotRecent st.conf a) (hdot : ¬ DotDot (trim a.pathPattern))
    {olds news : List Located} (hrev : Revisions W (cmd.root.join a.repo) a (st.conf.sh.repo a.repo) olds news)
    (hrx : ∀ q, a.pallet = some q ∨ a.extrinsic = some q → s.srv.rx.compile q ≠ none)
    (hsz : AllSized a.method a.unit olds news) (hin : ∀ x, x ∈ olds ∨ x ∈ news → Inert x.file)
    (hr : BareNames cmd.repos) (h1 : Inert org) (h2 : Inert a.repo) (h3 : Inert a.old) (h4 : Inert a.new) {x : Response ⊕ Nat}
    {g : Nat → SiteState W.State} (hg : s.Step W st (g 0)) (hg0 : (g 0).inbox = st.inbox ++ [(r, x)]) (h : Undisturbed W s g) :
    ∃ n all diff page, s.Replied (g n) st.inbox.length ⟨200, textHtml, page⟩ ∧ ShowsReport s.srv.rx a org olds news all diff page := by
  obtain ⟨-, -, hs⟩ := C89_serves hS a.repo
  obtain ⟨org', e1, hk, ho⟩ := hs hrepo
  rw [horg] at e1
  cases e1
  have hR0 : s.Reachable W (g 0) := .step hR hg
  have hconf : (g 0).conf = ⟨st.conf.threads ++ [begin (.compare a)], st.conf.sh⟩ ∧ x = .inr st.conf.threads.length := by
    generalize g 0 = y at hg hg0
    cases hg with
    | thread i h => exact absurd hg0 (by simp)
    | tick d => exact absurd hg0 (by simp)
    | now r' h =>
      have := List.append_cancel_left hg0
      cases this
      rw [hacc] at h
      cases h
    | later r' h =>
      have := List.append_cancel_left hg0
      cases this
      rw [hacc] at h
      cases h
      exact ⟨rfl, rfl⟩
  obtain ⟨hconf, rfl⟩ := hconf
  obtain ⟨n, hd⟩ := C90_finishes h
  obtain ⟨pc, ht, hsolo⟩ := solo_run hq hp (by rw [hk]; exact nofun) hn hR0 h hconf n
  have hfin : pc = .finished := hd st.conf.threads.length pc (by rw [ht]; simp)
  subst hfin
  obtain ⟨ho', fi, res, t, hrun, -, -, hlog⟩ := hsolo
  have hal := doCompare_alone (W := W) (srv := s.srv) (by rw [hk]; exact nofun) hrun
  obtain ⟨G1, s1, files1, G2, s2, files2, c1, l1, f1, c2, l2, f2⟩ := hrev
  have hbare : BareNames s.names := fun n hn => hr n ((C89_serves hS n).1.1 hn)
  obtain ⟨all, diff, page, rfl, -, k1, k2⟩ :=
    Gen.outcome_shown hsyn hk hdot c1 l1 f1 c2 l2 f2 hrx hsz hin (version := s.version) hbare h1 h2 h3 h4 hal
  refine ⟨n, all, diff, page, .compared (r := r) (id := st.conf.threads.length) (a := a) (x := .ok diff) (cached := false) (t := t) ?_ ?_ ?_, k2⟩
  · rw [h.alone, hg0]; simp
  · rw [hlog]; simp [answerOf]
  · rw [hb, ho]; exact k1

/-- C91: from the request to the page.  If nothing is going on, the comparison has not been made recently, and both revisions can be checked out and have
generated weight files, then a request for the comparison is answered, in whatever order the server works, with a page that shows the report on these files. -/
theorem C91_served {s : Site} {m : Machine} {args : List Str} {cmd : ServerCmd} (hS : s.Started m args cmd) (hb : s.srv.build = .release)
    (hsyn : s.srv.env.syn = rustSyn) {st : SiteState W.State} (hR : s.Reachable W st) (hq : AllDone st.conf) (hp : st.conf.sh.poisoned = false)
    {r : HttpRequest} (hreq : Requests r (str% "/compare")) {ps : List (Str × Str)} (hs : SpellsPairs ps r.query) {asked a : CompareArgs} (hA : Asks ps asked)
    (ha : a = { asked with new := s.ent.decode asked.new, old := s.ent.decode asked.old, pathPattern := s.ent.decode asked.pathPattern })
    (hrepo : a.repo ∈ cmd.repos) {org : Str} (horg : getOriginOrg (m.origin (cmd.root.join a.repo)) = .ok org) (hn : NotRecent st.conf a)
    (hdot : ¬ DotDot (trim a.pathPattern)) {olds news : List Located} (hrev : Revisions W (cmd.root.join a.repo) a (st.conf.sh.repo a.repo) olds news)
    (hrx : ∀ q, a.pallet = some q ∨ a.extrinsic = some q → s.srv.rx.compile q ≠ none)
    (hsz : AllSized a.method a.unit olds news) (hin : ∀ x, x ∈ olds ∨ x ∈ news → Inert x.file)
    (hr : BareNames cmd.repos) (h1 : Inert org) (h2 : Inert a.repo) (h3 : Inert a.old) (h4 : Inert a.new) :
    (∃ g x, s.Step W st (g 0) ∧ (g 0).inbox = st.inbox ++ [(r, x)] ∧ Undisturbed W s g) ∧
    ∀ g x, s.Step W st (g 0) → (g 0).inbox = st.inbox ++ [(r, x)] → Undisturbed W s g →
      ∃ n all diff page, s.Replied (g n) st.inbox.length ⟨200, textHtml, page⟩ ∧ ShowsReport s.srv.rx a org olds news all diff page := by
  have hacc := accept_compare s hreq hs hA
  rw [← ha] at hacc
  refine ⟨?_, fun g x hg hg0 h => click_core hS hb hsyn hR hq hp hacc hrepo horg hn hdot hrev hrx hsz hin hr h1 h2 h3 h4 hg hg0 h⟩
  have hst := Site.Step.later (W := W) (st := st) r hacc
  obtain ⟨g, e, hu⟩ := undisturbed_exists (.step hR hst)
  exact ⟨g, _, e ▸ hst, by rw [e], hu⟩

theorem preset_harmless : ∀ x ∈ pathPresets, hasDotDot (trim x.2) = false ∧ ∀ c ∈ x.1, c ≠ '<' ∧ c ≠ '&' ∧ c ≠ '"' := by decide +kernel

theorem mem_of_lookup {α β : Type} [BEq α] [LawfulBEq α] {l : List (α × β)} {k : α} {v : β} (h : l.lookup k = some v) : (k, v) ∈ l := by
  induction l with
  | nil => cases h
  | cons x l ih =>
    rw [List.lookup] at h
    split at h
    · rename_i e
      cases h
      rw [eq_of_beq e]
      exact List.mem_cons_self
    · exact List.mem_cons_of_mem _ (ih h)

/-- C91: from the click to the page.  On the start page a repository with a preset and two revisions are selected, as the summary shows, and the button is
pressed.  If nothing else is going on, the comparison has not been made recently, and both revisions can be checked out and have generated weight files, then
the button's request is answered, in whatever order the server works, with a page that shows the report on the files of these two revisions. -/
theorem C91_click {s : Site} {m : Machine} {args : List Str} {cmd : ServerCmd} (hS : s.Started m args cmd) (hb : s.srv.build = .release)
    (hsyn : s.srv.env.syn = rustSyn) {st : SiteState W.State} (hR : s.Reachable W st) (hq : AllDone st.conf) (hp : st.conf.sh.poisoned = false)
    {store : Str → Option Str} {tr : List PageEvent} {p : StartPage} (hv : Visit s.names store tr p) {repo old new pattern : Str}
    (hpr : p.repo = some repo) (hpo : p.first = some old) (hpn : p.second = some new) (hpp : pathPresets.lookup repo = some pattern)
    (u1 : UrlSafe old) (u2 : UrlSafe new) (p1 : '+' ∉ old) (p2 : '+' ∉ new) {a : CompareArgs}
    (ha : a = { old := old, new := new, repo := repo, pathPattern := pattern, extrinsic := none, pallet := none, ignoreErrors := true, threshold := 10,
                unit := .time, gitPull := none, method := .asymptotic })
    {org : Str} (horg : getOriginOrg (m.origin (cmd.root.join repo)) = .ok org) (hn : NotRecent st.conf a)
    {olds news : List Located} (hrev : Revisions W (cmd.root.join repo) a (st.conf.sh.repo repo) olds news)
    (hsz : AllSized .asymptotic .time olds news) (hin : ∀ x, x ∈ olds ∨ x ∈ news → Inert x.file)
    (hr : BareNames cmd.repos) (h1 : Inert org) (h3 : Inert old) (h4 : Inert new) :
    p.shownRepo = repo ∧ p.shownFirst = old ∧ p.shownSecond = new ∧ ∃ q, p.compare = some q ∧
    (∃ g x, s.Step W st (g 0) ∧ (g 0).inbox = st.inbox ++ [(⟨str% "GET", utf8 (str% "/compare"), q⟩, x)] ∧ Undisturbed W s g) ∧
    ∀ g x, s.Step W st (g 0) → (g 0).inbox = st.inbox ++ [(⟨str% "GET", utf8 (str% "/compare"), q⟩, x)] → Undisturbed W s g →
      ∃ n all diff page, s.Replied (g n) st.inbox.length ⟨200, textHtml, page⟩ ∧ ShowsReport s.srv.rx a org olds news all diff page := by
  obtain ⟨e1, e2, e3, q, hq', hargs⟩ := C83_compare s.u s.ent hv hpr hpo hpn hpp u1 u2 p1 p2
  rw [← ha] at hargs
  have hmem : repo ∈ cmd.repos := (C89_serves hS repo).1.1 ((C83_selected hv).2.2 repo hpr).2.1
  have hroute : route ⟨str% "GET", utf8 (str% "/compare"), q⟩ = some .compare := (C89_route _ (h := .compare) rfl).2 (C89_plain (h := .compare) rfl q)
  have hacc : s.accept ⟨str% "GET", utf8 (str% "/compare"), q⟩ = .run (.compare a) := by
    unfold Site.accept
    rw [hroute]
    dsimp only
    rw [hargs]
  have hpre := preset_harmless _ (mem_of_lookup hpp)
  subst ha
  refine ⟨e1, e2, e3, q, hq', ?_, fun g x hg hg0 h => click_core hS hb hsyn hR hq hp hacc hmem horg hn
    (by rw [← hasDotDot_iff]; simp [hpre.1]) hrev (by rintro q (h | h) <;> cases h) hsz hin hr h1 hpre.2 h3 h4 hg hg0 h⟩
  have hst := Site.Step.later (W := W) (st := st) _ hacc
  obtain ⟨g, e, hu⟩ := undisturbed_exists (.step hR hst)
  exact ⟨g, _, e ▸ hst, by rw [e], hu⟩

/-! ### A concrete case -/

/-- The command line of the example. -/
def exClickLine : List Str := [str% "--root", str% "r", str% "--repos", str% "polkadot-sdk"]

/-- Its site. -/
noncomputable def exClickSite : Site where
  srv := { exServer ⟨rustSyn, asciiClass⟩ with repos := fun r => if r = str% "polkadot-sdk" then some [.normal (str% "r"), .normal (str% "polkadot-sdk")] else none }
  entries := [⟨str% "polkadot-sdk", [.normal (str% "r"), .normal (str% "polkadot-sdk")], str% "me"⟩]
  version := str% "1.0+ab"
  badge _ := []
  files _ _ := ⟨404, [], []⟩
  queryError _ := str% "missing field"
  badQuery _ := str% "duplicate field"
  ioStatus _ := 500
  ioStatus_mem _ := .inr (.inr rfl)
  u := strictUtf8
  ent := ⟨id, fun _ _ => rfl⟩

/-- The options of its command line. -/
def exClickCmd : ServerCmd :=
  ⟨[.normal (str% "r")], [.normal (str% "web"), .normal (str% "static")], [str% "polkadot-sdk"], str% "127.0.0.1", 8080, none, none⟩

theorem exClick_started : exClickSite.Started exMachine exClickLine exClickCmd := by
  refine ⟨[(str% "polkadot-sdk", ⟨str% "polkadot-sdk", [.normal (str% "r"), .normal (str% "polkadot-sdk")], str% "me"⟩)], ?_, ?_, ?_, ?_⟩
  · rfl
  · intro n
    show (if n = str% "polkadot-sdk" then _ else _) = _
    by_cases h : n = str% "polkadot-sdk"
    · subst h; rfl
    · rw [if_neg h, List.lookup, show (n == str% "polkadot-sdk") = false from beq_eq_false_iff_ne.2 h]
      rfl
  · intro r
    show r ∈ [_] ↔ _
    rw [List.mem_singleton]
    constructor
    · rintro rfl; rfl
    · intro h
      rw [List.lookup] at h
      split at h
      · exact (Option.some.inj h).symm
      · cases h
  · exact List.nodup_singleton _

/-- The files of its repository. -/
def exClickFiles : List Path :=
  [[.normal (str% "r"), .normal (str% "polkadot-sdk"), .normal (str% "a.rs")], [.normal (str% "r"), .normal (str% "polkadot-sdk"), .normal (str% "w.rs")]]

/-- Git in its repository: everything can be fetched, and there are two branches. -/
def exClickGit (s : Str) (args : List Str) : GitOut × Str :=
  if args.head? = some (str% "fetch") then (.exited true [] [] true, s)
  else if args = [str% "reset", str% "--hard", str% "origin/master"] then (.exited true [] [] true, str% "v1")
  else if args = [str% "reset", str% "--hard", str% "origin/release"] then (.exited true [] [] true, str% "v2")
  else (.exited false [] [] true, s)

/-- Its repository: the branches `master` and `release` have two generated weight files each. -/
def exClickWorld : World := { exGenWorld with git := exClickGit, glob := fun _ _ => .ok (exClickFiles.map .ok) }

/-- What the button asks for. -/
def exClickArgs : CompareArgs :=
  { old := str% "master", new := str% "release", repo := str% "polkadot-sdk", pathPattern := pathPresets.head!.2, extrinsic := none, pallet := none,
    ignoreErrors := true, threshold := 10, unit := .time, gitPull := none, method := .asymptotic }

theorem exClick_revisions (s : Str) : Revisions exClickWorld [.normal (str% "r"), .normal (str% "polkadot-sdk")] exClickArgs s
    (exLocated 7000000) (exLocated 9000000) := by
  have hc1 : ∃ G, CheckedOut exClickWorld (str% "master") true true s G (str% "v1") :=
    ⟨_, _, _, _, .inl ⟨rfl, _, rfl, ⟨_, _, _, rfl⟩, rfl⟩, rfl, .inr (.inl ⟨rfl, _, rfl, ⟨_, _, _, rfl⟩, rfl⟩)⟩
  have hc2 : ∃ G, CheckedOut exClickWorld (str% "release") true true (str% "v1") G (str% "v2") :=
    ⟨_, _, _, _, .inl ⟨rfl, _, rfl, ⟨_, _, _, rfl⟩, rfl⟩, rfl, .inr (.inl ⟨rfl, _, rfl, ⟨_, _, _, rfl⟩, rfl⟩)⟩
  have hli : ∀ s : Str, Listed exClickWorld s [.normal (str% "r"), .normal (str% "polkadot-sdk")] (trim exClickArgs.pathPattern) 6000 exClickFiles := fun s =>
    ((C38_listed (W := exClickWorld) _ _ 6000 ⟨s, []⟩ _ exClickFiles).1 rfl).1
  obtain ⟨G1, c1⟩ := hc1
  obtain ⟨G2, c2⟩ := hc2
  exact ⟨G1, _, exClickFiles, G2, _, exClickFiles, c1, hli _,
    .file rfl exGen_7 (by decide) (exGen_ok (by decide)) (by decide) (.file rfl exGen_7 (by decide) (exGen_ok (by decide)) (by decide) .nil), c2, hli _,
    .file rfl exGen_9 (by decide) (exGen_ok (by decide)) (by decide) (.file rfl exGen_9 (by decide) (exGen_ok (by decide)) (by decide) .nil)⟩

theorem exClick_inert : ∀ x, x ∈ exLocated 7000000 ∨ x ∈ exLocated 9000000 → Inert x.file := by
  intro x hx
  have : x.file = str% "a.rs" ∨ x.file = str% "w.rs" := by
    rcases hx with hx | hx <;> simp [exLocated, exGenFns] at hx <;> rcases hx with rfl | rfl | rfl | rfl <;> simp
  rcases this with h | h <;> rw [h] <;> unfold Inert <;> decide

/-- All hypotheses are met: the user selects a repository, waits, selects two branches and presses the button. -/
theorem C91_example : ∃ p q, Visit exClickSite.names (fun _ => none)
      [.repo (str% "polkadot-sdk"), .answer 0 (str% "polkadot-sdk") exSdk, .second (str% "release")] p ∧ p.compare = some q ∧
    (∃ g x, exClickSite.Step exClickWorld ⟨initial exClickWorld (fun _ => str% "start") 0, []⟩ (g 0) ∧
      (g 0).inbox = [(⟨str% "GET", utf8 (str% "/compare"), q⟩, x)] ∧ Undisturbed exClickWorld exClickSite g) ∧
    ∀ g x, exClickSite.Step exClickWorld ⟨initial exClickWorld (fun _ => str% "start") 0, []⟩ (g 0) →
      (g 0).inbox = [(⟨str% "GET", utf8 (str% "/compare"), q⟩, x)] → Undisturbed exClickWorld exClickSite g →
      ∃ n all diff page, exClickSite.Replied (g n) 0 ⟨200, textHtml, page⟩ ∧
        ShowsReport exRegex exClickArgs (str% "me") (exLocated 7000000) (exLocated 9000000) all diff page := by
  have hv : ∃ p, visit [str% "polkadot-sdk"] (fun _ => none) [.repo (str% "polkadot-sdk"), .answer 0 (str% "polkadot-sdk") exSdk, .second (str% "release")] =
      some p ∧ p.repo = some (str% "polkadot-sdk") ∧ p.first = some (str% "master") ∧ p.second = some (str% "release") := ⟨_, rfl, rfl, rfl, rfl⟩
  obtain ⟨p, hv, e1, e2, e3⟩ := hv
  have hv := visit_sound hv
  have h0 : exClickSite.Reachable exClickWorld ⟨initial exClickWorld (fun _ => str% "start") 0, []⟩ := .init _ _
  obtain ⟨-, -, -, q, hq, k1, k2⟩ := C91_click (W := exClickWorld) exClick_started rfl rfl h0
    (by intro i pc h; cases h) rfl hv e1 e2 e3 rfl (urlSafe_of (by decide)) (urlSafe_of (by decide)) (by decide) (by decide) (a := exClickArgs) rfl
    (org := str% "me") rfl (by intro id ho st fi v t h; cases h) (exClick_revisions _) (exGen_sized _ _)
    exClick_inert
    (by unfold BareNames; decide) (by unfold Inert; decide) (by unfold Inert; decide) (by unfold Inert; decide)
  exact ⟨p, q, hv, hq, k1, k2⟩

end Swc
