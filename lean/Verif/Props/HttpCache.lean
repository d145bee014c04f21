/-
C119: caches between the reader and the server.
-/
import Verif.Spec.HttpCache
import Verif.Props.Site

namespace Swc

open Spec

/-- The header of the version and of the badge, as it is sent. -/
theorem C119_header : cacheControl versionDirectives = str% "no-cache, public, max-age=600" := by decide +kernel

/-- The header of the version and of the badge tells caches to ask. -/
theorem mustAsk_version {x : Reply} (h : x.cacheControl = some (cacheControl versionDirectives)) : MustAsk x :=
  ⟨_, h, by rw [C119_header]; decide +kernel⟩

/-- Whatever comes from caches was answered by the server at some time until now. -/
theorem C119_answered {ans : Answering} {reuse : Reply → Nat → Prop} {k t : Nat} {r : HttpRequest} {x : Reply} (h : Gets ans reuse k t r x) :
    ∃ t' ≤ t, ans t' r x := by
  induction h with
  | server h => exact ⟨_, Nat.le_refl _, h⟩
  | forward _ ih => exact ih
  | again ht _ _ ih =>
    obtain ⟨t', h1, h2⟩ := ih
    exact ⟨t', by omega, h2⟩

/-- An answer that no cache may use comes from the server, now. -/
theorem gets_now {ans : Answering} {reuse : Reply → Nat → Prop} {k t : Nat} {r : HttpRequest} {x : Reply} (h : Gets ans reuse k t r x)
    (hno : ∀ t' y age, t' < t → ans t' r y → ¬ reuse y age) : ans t r x := by
  induction h with
  | server h => exact h
  | forward _ ih => exact ih hno
  | again ht h hr ih =>
    obtain ⟨t', h1, h2⟩ := C119_answered h
    exact absurd hr (hno t' _ _ (by omega) h2)

section

variable {site : Nat → Site} {static : Option Str} {ans : Answering} {u : Utf8Lossy}

theorem header_badge {s : Site} {r : HttpRequest} (hr : Requests r (str% "/version/badge")) : s.cacheHeader static r = some (cacheControl versionDirectives) := by
  unfold Site.cacheHeader
  rw [(C89_route r (h := .badge) rfl).2 hr]

theorem header_version {s : Site} {r : HttpRequest} (hr : Requests r (str% "/version")) {ps : List (Str × Str)} (hs : SpellsPairs ps r.query)
    (hn : Never ps (str% "is")) : s.cacheHeader static r = some (cacheControl versionDirectives) := by
  unfold Site.cacheHeader
  rw [(C89_route r (h := .version) rfl).2 hr]
  dsimp only
  rw [(version_query s.u hs none).2 (.inl ⟨rfl, hn⟩)]

/-- C119: the badge.  Through any number of caches that ask when they must, whatever else they do, a reader sees the badge of the version that is deployed when
they look.  (So the age of 600 seconds that the header gives as well has no effect.) -/
theorem C119_badge (ha : AnsweredBy site static ans) {reuse : Reply → Nat → Prop} (hc : ∀ x age, reuse x age → ¬ MustAsk x) {k t : Nat} {r : HttpRequest}
    {x : Reply} (hr : Requests r (str% "/version/badge")) (h : Gets ans reuse k t r x) :
    x.resp = ⟨200, str% "image/svg+xml", (site t).badge (site t).version⟩ := by
  have hnow := gets_now h fun t' y age _ hy hre => hc y age hre (mustAsk_version ((ha t' r y hy).1.trans (header_badge hr)))
  refine (ha t r x hnow).2 _ ?_
  unfold Site.accept
  rw [(C89_route r (h := .badge) rfl).2 hr]

/-- C119: the version.  The same for `/version` without `is`. -/
theorem C119_version (ha : AnsweredBy site static ans) {reuse : Reply → Nat → Prop} (hc : ∀ x age, reuse x age → ¬ MustAsk x) {k t : Nat} {r : HttpRequest}
    {x : Reply} (hr : Requests r (str% "/version")) {ps : List (Str × Str)} (hs : SpellsPairs ps r.query) (hn : Never ps (str% "is")) (h : Gets ans reuse k t r x) :
    x.resp.status = 200 ∧ x.resp.body = (site t).version := by
  have hnow := gets_now h fun t' y age _ hy hre => hc y age hre (mustAsk_version ((ha t' r y hy).1.trans (header_version hr hs hn)))
  have := (ha t r x hnow).2 (Swc.version (site t).version none) (by
    unfold Site.accept
    rw [(C89_route r (h := .version) rfl).2 hr]
    dsimp only
    rw [(version_query _ hs none).2 (.inl ⟨rfl, hn⟩)])
  rw [this]
  exact ⟨rfl, rfl⟩

/-- What the check of a version answers. -/
theorem check_answer (ha : AnsweredBy site static ans) {t : Nat} {r : HttpRequest} {x : Reply} (hr : Requests r (str% "/version")) {ps : List (Str × Str)}
    (hs : SpellsPairs ps r.query) {v : Str} (hv : Once ps (str% "is") v) (h : ans t r x) :
    x.cacheControl = none ∧ x.resp = Swc.version (site t).version (some v) := by
  have hq : parseVersionQuery (site t).u r.query = some (some v) := (version_query _ hs (some v)).2 (.inr ⟨v, rfl, hv⟩)
  obtain ⟨h1, h2⟩ := ha t r x h
  refine ⟨?_, h2 _ ?_⟩
  · rw [h1]
    unfold Site.cacheHeader
    rw [(C89_route r (h := .version) rfl).2 hr]
    dsimp only
    rw [hq]
  · unfold Site.accept
    rw [(C89_route r (h := .version) rfl).2 hr]
    dsimp only
    rw [hq]

/-- C119: the check of a version, `/version?is=v`, never passes in vain: if it does, through any caches, then the server has run that version at some time until then. -/
theorem C119_passed (ha : AnsweredBy site static ans) {reuse : Reply → Nat → Prop} {k t : Nat} {r : HttpRequest}
    {x : Reply} (hr : Requests r (str% "/version")) {ps : List (Str × Str)} (hs : SpellsPairs ps r.query) {v : Str} (hv : Once ps (str% "is") v)
    (h : Gets ans reuse k t r x) (hx : x.resp.status = 200) : ∃ t' ≤ t, v = (site t').version ∨ PlusToSpace (site t').version v := by
  obtain ⟨t', h1, h2⟩ := C119_answered h
  refine ⟨t', h1, (C65_version _ _).1.1 ?_⟩
  rw [← (check_answer ha hr hs hv h2).2]
  exact hx

/-- C119: the check of a version works for a deployment: if the server has not run this version before `t0` and runs it from then on, then through any caches that only use
fresh answers again the check fails before `t0` and passes from then on. -/
theorem C119_deployment (ha : AnsweredBy site static ans) {t0 : Nat} {v : Str} (hbefore : ∀ t < t0, ¬ (v = (site t).version ∨ PlusToSpace (site t).version v))
    (hafter : ∀ t ≥ t0, v = (site t).version ∨ PlusToSpace (site t).version v) {k t : Nat} {r : HttpRequest} {x : Reply} (hr : Requests r (str% "/version"))
    {ps : List (Str × Str)} (hs : SpellsPairs ps r.query) (hv : Once ps (str% "is") v) (h : Gets ans Fresh k t r x) :
    (t < t0 → x.resp.status = 500) ∧ (t0 ≤ t → x.resp.status = 200) := by
  have hstatus : ∀ {t' : Nat} {y : Reply}, ans t' r y → y.cacheControl = none ∧ (t' < t0 → y.resp.status = 500) ∧ (t0 ≤ t' → y.resp.status = 200) := by
    intro t' y hy
    obtain ⟨h1, h2⟩ := check_answer ha hr hs hv hy
    refine ⟨h1, fun hlt => ?_, fun hge => ?_⟩ <;> rw [h2]
    · exact (C65_version _ _).2.2 (hbefore t' hlt)
    · exact (C65_version _ _).1.2 (hafter t' hge)
  have hfail : ∀ {y : Reply} {age : Nat}, y.cacheControl = none → y.resp.status = 500 → ¬ Fresh y age := by
    rintro y age h1 h2 ⟨-, ⟨n, ⟨hd, h3, -⟩, -⟩ | ⟨-, h3⟩⟩
    · rw [h1] at h3; cases h3
    · rw [h2] at h3; revert h3; decide
  induction h with
  | server h => exact (hstatus h).2
  | forward _ ih => exact ih hr hs hstatus
  | again ht h hre ih =>
    obtain ⟨t'', h1, h2⟩ := C119_answered h
    rcases Nat.lt_or_ge t'' t0 with hlt | hge
    · exact absurd hre (hfail (hstatus h2).1 ((hstatus h2).2.1 hlt))
    · exact ⟨fun _ => by omega, fun _ => (hstatus h2).2.2 hge⟩

/-- C119, against the text: other answers say nothing about caches, so caches may use those with status 200 again for as long as they think fit.  In particular pages with
comparisons may be older than the ten minutes that the server keeps them. -/
theorem C119_unsaid (ha : AnsweredBy site static ans) {t : Nat} {r : HttpRequest} {x : Reply} (h : ans t r x) (hb : ¬ BelowStatic r)
    (h1 : ¬ Requests r (str% "/version/badge")) (h2 : ¬ Requests r (str% "/version")) : x.cacheControl = none ∧
      (x.resp.status = 200 → ∀ later, t < later → ∀ k, Gets ans Fresh (k + 1) later r x) := by
  have hnone : x.cacheControl = none := by
    rw [(ha t r x h).1]
    unfold Site.cacheHeader
    cases hro : route r with
    | none => rfl
    | some hd =>
      cases hd with
      | files tl => exact absurd ((C89_static r).1 ⟨tl, hro⟩) hb
      | badge => exact absurd ((C89_route r (h := .badge) rfl).1 hro) h1
      | version => exact absurd ((C89_route r (h := .version) rfl).1 hro) h2
      | compare => rfl
      | root => rfl
      | branches => rfl
      | mergeRequests => rfl
      | compareCommit => rfl
  refine ⟨hnone, fun hs later hl k => ?_⟩
  have hf : ∀ age, Fresh x age := fun age => ⟨(by rintro ⟨hd, h3, -⟩; rw [hnone] at h3; cases h3), .inr ⟨hnone, by rw [hs]; decide⟩⟩
  have : ∀ k, Gets ans Fresh k t r x := by
    intro k
    induction k with
    | zero => exact .server h
    | succ k ih => exact .forward ih
  exact .again hl (this k) (hf _)

end

/-- C119, against the text: after a version has been taken back the check may still pass.  The server runs the version 2 for a second, then 1 again, and through one cache
that does nothing wrong the check for 2 passes for ever. -/
theorem C119_rollback (s : Site) : ∃ (site : Nat → Site) (ans : Answering), AnsweredBy site none ans ∧
    (∀ t, (site t).version = if t = 0 then str% "2" else str% "1") ∧
    ∀ t, 0 < t → ∃ x, Gets ans Fresh 1 t ⟨str% "GET", utf8 (str% "/version"), utf8 (str% "is=2")⟩ x ∧ x.resp.status = 200 ∧ x.resp.body = str% "Version check passed" := by
  let site : Nat → Site := fun t => { s with version := if t = 0 then str% "2" else str% "1" }
  let ans : Answering := fun t r x => x.cacheControl = (site t).cacheHeader none r ∧ ∀ resp, (site t).accept r = .answer resp → x.resp = resp
  refine ⟨site, ans, fun t r x h => h, fun t => rfl, fun t ht => ?_⟩
  have hr : Requests ⟨str% "GET", utf8 (str% "/version"), utf8 (str% "is=2")⟩ (str% "/version") := C89_plain (h := .version) rfl _
  have hs : SpellsPairs [(str% "is", str% "2")] (utf8 (str% "is=2")) :=
    .one (formEncode_pair (str% "is", str% "2"))
  have hq : ∀ u, parseVersionQuery u (utf8 (str% "is=2")) = some (some (str% "2")) := fun u => (version_query u hs _).2 (.inr ⟨_, rfl, [], [], rfl, (fun _ h => nomatch h), fun _ h => nomatch h⟩)
  have hacc : (site 0).accept ⟨str% "GET", utf8 (str% "/version"), utf8 (str% "is=2")⟩ = .answer ⟨200, textHtml, str% "Version check passed"⟩ := by
    unfold Site.accept
    rw [(C89_route _ (h := .version) rfl).2 hr]
    dsimp only
    rw [hq]
    rfl
  have hh : (site 0).cacheHeader none ⟨str% "GET", utf8 (str% "/version"), utf8 (str% "is=2")⟩ = none := by
    unfold Site.cacheHeader
    rw [(C89_route _ (h := .version) rfl).2 hr]
    dsimp only
    rw [hq]
  refine ⟨⟨⟨200, textHtml, str% "Version check passed"⟩, none⟩, .again ht (.server ⟨hh.symm, fun resp h => ?_⟩) ⟨?_, .inr ⟨rfl, by decide⟩⟩, rfl, rfl⟩
  · rw [hacc] at h; cases h; rfl
  · rintro ⟨hd, h3, -⟩; cases h3

/-! ### A concrete case -/

/-- The example: the version 1.0 is replaced by 1.1 at time 5. -/
noncomputable def exDeployed (t : Nat) : Site := { exSite with version := if t < 5 then str% "1.0" else str% "1.1" }

/-- Its answers. -/
def exAnswering : Answering := fun t r x => x.cacheControl = (exDeployed t).cacheHeader none r ∧ ∀ resp, (exDeployed t).accept r = .answer resp → x.resp = resp

example : AnsweredBy exDeployed none exAnswering := fun _ _ _ h => h

/-- The badge through three caches. -/
example (x : Reply) (h : Gets exAnswering Fresh 3 7 ⟨str% "GET", utf8 (str% "/version/badge"), []⟩ x) : x.resp = ⟨200, str% "image/svg+xml", []⟩ :=
  C119_badge (site := exDeployed) (static := none) (fun _ _ _ h => h) (fun _ _ h => h.1) (C89_plain (h := .badge) rfl _) h

/-- There is such an answer, and it comes from the server. -/
example : ∃ x, Gets exAnswering Fresh 3 7 ⟨str% "GET", utf8 (str% "/version/badge"), []⟩ x := by
  refine ⟨⟨⟨200, str% "image/svg+xml", []⟩, some (cacheControl versionDirectives)⟩, .forward (.forward (.forward (.server ⟨?_, fun resp h => ?_⟩)))⟩
  · exact (header_badge (C89_plain (h := .badge) rfl _)).symm
  · unfold Site.accept at h
    rw [(C89_route _ (h := .badge) rfl).2 (C89_plain (h := .badge) rfl _)] at h
    cases h
    rfl

/-- The check for the version 1.1 through two caches. -/
example (t : Nat) (x : Reply) (h : Gets exAnswering Fresh 2 t ⟨str% "GET", utf8 (str% "/version"), utf8 (str% "is=1.1")⟩ x) :
    (t < 5 → x.resp.status = 500) ∧ (5 ≤ t → x.resp.status = 200) := by
  have hd : ∀ t, t < 5 → (exDeployed t).version = str% "1.0" := fun t ht => if_pos ht
  have hd' : ∀ t, 5 ≤ t → (exDeployed t).version = str% "1.1" := fun t ht => if_neg (by omega)
  refine C119_deployment (site := exDeployed) (static := none) (fun _ _ _ h => h) (t0 := 5) (v := str% "1.1") (fun t ht => ?_) (fun t ht => .inl (hd' t ht).symm)
    (C89_plain (h := .version) rfl _) (ps := [(str% "is", str% "1.1")]) (.one (formEncode_pair (str% "is", str% "1.1")))
    ⟨[], [], rfl, (fun _ h => nomatch h), fun _ h => nomatch h⟩ h
  rw [hd t ht]
  intro hv
  have := (C65_version (str% "1.0") (str% "1.1")).1.2 hv
  revert this
  decide +kernel

/-- An answer without `no-cache` would be used again for as long as it says. -/
example : Fresh ⟨⟨200, [], []⟩, some (cacheControl [.shared, .maxAge 600])⟩ 599 :=
  ⟨(by rintro ⟨h, h1, h2⟩; cases h1; revert h2; decide +kernel), .inl ⟨600, ⟨_, rfl, by decide +kernel⟩, by decide⟩⟩

end Swc
