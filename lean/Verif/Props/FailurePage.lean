/-
C100 on the server: the page that answers a failed comparison says which step failed, and why.
-/
import Verif.Props.Failure
import Verif.Props.Click

namespace Swc

open Spec

variable {W : World}

/-- The comparison that the request asks for fails in this state of its repository, and why: it fetches unless told not to, overwrites what is checked
out, and takes at most 6000 files. -/
def Spec.RequestFails (W : World) (s : Site) (repo : Path) (a : CompareArgs) (st fi : W.State) (why : Str) : Prop :=
  NoReport W s.srv.rx s.srv.env repo (trim a.old) (trim a.new)
    { method := a.method, unit := a.unit, ignoreErrors := a.ignoreErrors, gitPull := a.gitPull ≠ some false, offline := false, gitForce := true }
    (filterOf a) (trim a.pathPattern) 6000 st fi why

theorem alone_fails {s : Site} {ho : HashOrder} {a : CompareArgs} {st fi : W.State} {m : Str} (h : Alone W s.srv ho a st (.err m) fi) :
    ∃ repo, s.srv.repos a.repo = some repo ∧ RequestFails W s repo a st fi m := by
  obtain ⟨repo, filter, out, h1, h2, h3, h4, h5⟩ := h
  obtain ⟨r, s'⟩ := out
  cases r with
  | err e =>
    cases h4
    refine ⟨repo, h1, ?_⟩
    rw [h5]
    subst h2
    exact C100_why h3.symm
  | ok _ => cases h4
  | panic => cases h4
  | diverge => cases h4

/-- C100: every page that reports a failed comparison says why it failed.  The comparison asked for was made, and this is what went wrong first. -/
theorem C100_page {s : Site} {st : SiteState W.State} (hR : s.Reachable W st) {m : Machine} {args : List Str} {cmd : ServerCmd}
    (hS : s.Started m args cmd) {k : Nat} {r : HttpRequest} {x : Response ⊕ Nat} (hk : st.inbox[k]? = some (r, x)) {resp : Response}
    (h : s.Replied st k resp) (hr : Requests r (str% "/compare")) {ps : List (Str × Str)} (hs : SpellsPairs ps r.query) {asked a : CompareArgs} (hA : Asks ps asked)
    (ha : a = { asked with new := s.ent.decode asked.new, old := s.ent.decode asked.old, pathPattern := s.ent.decode asked.pathPattern })
    (hrepo : a.repo ∈ cmd.repos) (hf : resp.status ≠ 200) :
    resp.status = 500 ∧ ∃ st0 fi, RequestFails W s (cmd.root.join a.repo) a st0 fi (textOf (tokens resp.body) (str% "h2")) := by
  have hq : requestArgs s.u s.ent r.query = some a := by
    unfold requestArgs
    rw [(C69_query s.u hs asked).2 hA, ha]
    rfl
  rcases compare_core hR hS hk h hr hq with ⟨h1, -⟩ | ⟨id, msg, t, hx, hl, -, h1, h2⟩ | ⟨_, _, _, _, _, _, _, _, _, h1, _⟩
  · exact absurd hrepo h1
  · refine ⟨h1, ?_⟩
    obtain ⟨-, -, h3⟩ := C89_serves hS a.repo
    obtain ⟨org, -, hp, -⟩ := h3 hrepo
    obtain ⟨pre, post, hsp⟩ := List.append_of_mem hl
    rcases C54_not_cached (sound hR).reach hsp with ⟨h4, -⟩ | ⟨pre', ho, st0, fi, res, hpre, ⟨v, -, hv⟩ | ⟨m', hv, hm⟩⟩
    · rw [hp] at h4; cases h4
    · cases hv
    · cases hm
      subst hv
      obtain ⟨repo, e, h5⟩ := alone_fails (C55_result (sound hR).reach (by rw [hsp, hpre]; simp : Entry.computed id a ho st0 fi (.err msg) t ∈ st.conf.sh.log))
      rw [hp] at e
      cases e
      exact ⟨st0, fi, h2 ▸ h5⟩
  · exact absurd h1 hf

/-- What becomes of a request for a comparison that fails. -/
theorem fails_core {s : Site} {m : Machine} {args : List Str} {cmd : ServerCmd} (hS : s.Started m args cmd)
    {st : SiteState W.State} (hR : s.Reachable W st) (hq : AllDone st.conf) (hp : st.conf.sh.poisoned = false)
    {r : HttpRequest} {a : CompareArgs} (hacc : s.accept r = .run (.compare a)) (hrepo : a.repo ∈ cmd.repos) (hn : NotRecent st.conf a) {why : Str}
    (hfail : ∀ ho, ((doCompare s.srv ho a).run W (st.conf.sh.repo a.repo)).1 = .err why) {x : Response ⊕ Nat}
    {g : Nat → SiteState W.State} (hg : s.Step W st (g 0)) (hg0 : (g 0).inbox = st.inbox ++ [(r, x)]) (h : Undisturbed W s g) :
    ∃ n page, s.Replied (g n) st.inbox.length ⟨500, textHtml, page⟩ ∧ textOf (tokens page) (str% "h2") = why := by
  obtain ⟨-, -, hs⟩ := C89_serves hS a.repo
  obtain ⟨org', e1, hk, ho⟩ := hs hrepo
  have hR0 : s.Reachable W (g 0) := .step hR hg
  have hconf : (g 0).conf = ⟨st.conf.threads ++ [begin (.compare a)], st.conf.sh⟩ ∧ x = .inr st.conf.threads.length := by
    generalize g 0 = y at hg hg0
    cases hg with
    | thread i h => exact absurd hg0 (by simp)
    | tick d => exact absurd hg0 (by simp)
    | now r' h =>
      have := List.append_cancel_left hg0
      cases this
      rw [hacc] at h
      cases h
    | later r' h =>
      have := List.append_cancel_left hg0
      cases this
      rw [hacc] at h
      cases h
      exact ⟨rfl, rfl⟩
  obtain ⟨hconf, rfl⟩ := hconf
  obtain ⟨n, hd⟩ := C90_finishes h
  obtain ⟨pc, ht, hsolo⟩ := solo_run hq hp (by rw [hk]; exact nofun) hn hR0 h hconf n
  have hfin : pc = .finished := hd st.conf.threads.length pc (by rw [ht]; simp)
  subst hfin
  obtain ⟨ho', fi, res, t, hrun, -, -, hlog⟩ := hsolo
  have := hfail ho'
  rw [← hrun] at this
  dsimp only at this
  subst this
  refine ⟨n, errorPage why, .compared (r := r) (id := st.conf.threads.length) (a := a) (x := .error why) (cached := false) (t := t) ?_ ?_ ?_, (C74_error_page _).1⟩
  · rw [h.alone, hg0]; simp
  · rw [hlog]; simp [answerOf]
  · rw [ho]; rfl

/-- C100: from the request to the page that says why.  If nothing is going on, the comparison has not been made recently, and it fails in the current state of the
repository, then a request for it is answered, in whatever order the server works, with a page that says what goes wrong first. -/
theorem C100_served {s : Site} {m : Machine} {args : List Str} {cmd : ServerCmd} (hS : s.Started m args cmd)
    {st : SiteState W.State} (hR : s.Reachable W st) (hq : AllDone st.conf) (hp : st.conf.sh.poisoned = false)
    {r : HttpRequest} (hreq : Requests r (str% "/compare")) {ps : List (Str × Str)} (hs : SpellsPairs ps r.query) {asked a : CompareArgs} (hA : Asks ps asked)
    (ha : a = { asked with new := s.ent.decode asked.new, old := s.ent.decode asked.old, pathPattern := s.ent.decode asked.pathPattern })
    (hrepo : a.repo ∈ cmd.repos) (hn : NotRecent st.conf a) {fi : W.State} {why : Str}
    (hno : RequestFails W s (cmd.root.join a.repo) a (st.conf.sh.repo a.repo) fi why) :
    (∃ g x, s.Step W st (g 0) ∧ (g 0).inbox = st.inbox ++ [(r, x)] ∧ Undisturbed W s g) ∧
    ∀ g x, s.Step W st (g 0) → (g 0).inbox = st.inbox ++ [(r, x)] → Undisturbed W s g →
      ∃ n page, s.Replied (g n) st.inbox.length ⟨500, textHtml, page⟩ ∧ textOf (tokens page) (str% "h2") = why := by
  have hacc := accept_compare s hreq hs hA
  rw [← ha] at hacc
  obtain ⟨-, -, hs'⟩ := C89_serves hS a.repo
  obtain ⟨-, -, hk, -⟩ := hs' hrepo
  refine ⟨?_, fun g x hg hg0 h => fails_core hS hR hq hp hacc hrepo hn (fun ho => ?_) hg hg0 h⟩
  · have hst := Site.Step.later (W := W) (st := st) r hacc
    obtain ⟨g, e, hu⟩ := undisturbed_exists (.step hR hst)
    exact ⟨g, _, e ▸ hst, by rw [e], hu⟩
  · obtain ⟨repo, filter, out, h1, h2, h3, h4, h5⟩ := doCompare_alone (W := W) (srv := s.srv) (a := a) (ho := ho) (st := st.conf.sh.repo a.repo)
      (by rw [hk]; exact nofun) (r := _) (fi := _) rfl
    rw [h4]
    rw [hk] at h1
    cases h1
    obtain ⟨l, h6⟩ := C100_said (b := s.srv.build) (ho := ho) (s := ⟨st.conf.sh.repo a.repo, []⟩) hno
    rw [h3, h2]
    unfold filterOf at h6
    rw [h6]
    rfl

/-! ### A concrete page -/

/-- The request of the example, with a revision that does not exist. -/
def exLostArgs : CompareArgs := { exAskArgs with new := str% "v3" }

/-- The pairs of its query. -/
def exLostPairs : List (Str × Str) :=
  [(str% "repo", str% "repo"), (str% "old", str% "v1"), (str% "new", str% "v3"), (str% "path_pattern", str% "*"),
    (str% "ignore_errors", str% "false"), (str% "threshold", str% "0"), (str% "unit", str% "weight"), (str% "git_pull", str% "false"),
    (str% "method", str% "guess-worst")]

theorem exLost_fails : ∃ fi, RequestFails exSiteWorld exSite [.normal (str% "r"), .normal (str% "repo")] exLostArgs (str% "start") fi
    (str% "\"Failed to reset branch: no such revision\"") := by
  have hc : CheckedOut exSiteWorld (str% "v1") false true (str% "start") _ (str% "v1") := ⟨[], _, _, .inr ⟨rfl, rfl, rfl⟩, rfl,
    .inr (.inr ⟨rfl, _, _, _, ⟨_, rfl, (by rintro ⟨_, _, _, h⟩; cases h), rfl⟩, ⟨_, rfl, ⟨_, _, _, rfl⟩, rfl⟩, rfl⟩)⟩
  have hl : Listed exSiteWorld (str% "v1") [.normal (str% "r"), .normal (str% "repo")] (str% "*") 6000 exSiteFiles :=
    ((C38_listed (W := exSiteWorld) _ _ 6000 ⟨str% "v1", []⟩ _ exSiteFiles).1 rfl).1
  have hp : FunctionsOf (exSiteWorld.fs (str% "v1")) [.normal (str% "r"), .normal (str% "repo")] false exSiteFiles (exLocated 7000000) :=
    .file rfl exGen_7 (by decide) (exGen_ok (by decide)) (by decide) (.file rfl exGen_7 (by decide) (exGen_ok (by decide)) (by decide) .nil)
  obtain ⟨exts, hp, -⟩ := Gen.functions_parsed (cc := asciiClass) hp
  refine ⟨str% "v1", .inr (.inr ⟨by rw [← hasDotDot_iff]; decide, str% "v1", ⟨_, _, exts, hc, hl, hp⟩, .inl (.inl ⟨str% "Failed to reset branch: no such revision", ?_, ?_⟩)⟩)⟩
  · exact .inr ⟨_, _, .inr ⟨rfl, rfl, rfl⟩, .inr ⟨rfl, _, _, ⟨_, rfl, (by rintro ⟨_, _, _, h⟩; cases h), rfl⟩, ⟨_, rfl, (by rintro ⟨_, _, _, h⟩; cases h), rfl⟩⟩⟩
  · have : debugStr asciiClass.plain (str% "Failed to reset branch: no such revision") = str% "\"Failed to reset branch: no such revision\"" := by decide +kernel
    exact this ▸ C100_quoted _ _

/-- All hypotheses of `C100_served` are met: the page says what git said. -/
theorem C100_example : ∃ r, Requests r (str% "/compare") ∧
    (∃ g x, exSite.Step exSiteWorld ⟨initial exSiteWorld (fun _ => str% "start") 0, []⟩ (g 0) ∧ (g 0).inbox = [(r, x)] ∧ Undisturbed exSiteWorld exSite g) ∧
    ∀ g x, exSite.Step exSiteWorld ⟨initial exSiteWorld (fun _ => str% "start") 0, []⟩ (g 0) → (g 0).inbox = [(r, x)] → Undisturbed exSiteWorld exSite g →
      ∃ n page, exSite.Replied (g n) 0 ⟨500, textHtml, page⟩ ∧ textOf (tokens page) (str% "h2") = str% "\"Failed to reset branch: no such revision\"" := by
  obtain ⟨cmd, hS⟩ := exSite_started
  obtain ⟨fi, hno⟩ := exLost_fails
  have h0 : exSite.Reachable exSiteWorld ⟨initial exSiteWorld (fun _ => str% "start") 0, []⟩ := .init _ _
  have hr : Requests ⟨str% "GET", utf8 (str% "/compare"), formSerialize exLostPairs⟩ (str% "/compare") :=
    (C89_route ⟨str% "GET", utf8 (str% "/compare"), formSerialize exLostPairs⟩ (h := .compare) rfl).1 (by decide +kernel)
  have hin : exLostArgs.repo ∈ cmd.repos := (C89_serves hS (str% "repo")).1.1 (by show _ ∈ [str% "repo"]; simp)
  obtain ⟨-, -, hs⟩ := C89_serves hS exLostArgs.repo
  obtain ⟨-, -, hk, -⟩ := hs hin
  have hk : some [.normal (str% "r"), .normal (str% "repo")] = some (cmd.root.join exLostArgs.repo) := hk
  refine ⟨_, hr, ?_⟩
  have := C100_served (W := exSiteWorld) hS h0 (by intro i pc h; cases h) rfl hr (C69_serialized exLostPairs)
    ((C69_args exLostPairs exLostArgs).1 rfl) (a := exLostArgs) rfl hin (by intro id ho st fi v t h; cases h) (Option.some.inj hk ▸ hno)
  exact this

end Swc
