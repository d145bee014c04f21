/-
C111: exactly which requests die, and of what, in release builds of the web server.
-/
import Verif.Spec.Deaths
import Verif.Props.Alive
import Verif.Props.Failure

namespace Swc

open Spec Prog

variable {W : World}

/-! ### Comparisons -/

/-- C111: a comparison that was made has panicked exactly if it crashes the parser in the state in which it began. -/
theorem C111_computed {srv : Server} (hb : srv.build = .release) {c : Config W.State} (h : Reachable W srv c) {id : Nat} {a : CompareArgs} {ho : HashOrder}
    {st fi : W.State} {r : Res (List ExtrinsicDiff)} {t : Nat} (hl : Entry.computed id a ho st fi r t ∈ c.sh.log) :
    (r = .panic ↔ CrashesParser W srv a st fi) ∧ (r = .panic ↔ ∃ s', CrashesParser W srv a st s') := by
  obtain ⟨path, filter, out, hp, -, hout, hr, hfi⟩ := C55_result h hl
  rw [hb] at hout
  have key : ∀ s', CrashesParser W srv a st s' ↔ out.1 = .panic ∧ out.2.state = s' := by
    intro s'
    have := C108_crash_iff (W := W) (ho := ho) (rx := srv.rx) (env := srv.env) (repo := path) (old := trim a.old) (new := trim a.new)
      (params := { method := a.method, unit := a.unit, ignoreErrors := a.ignoreErrors, gitPull := a.gitPull ≠ some false, offline := false, gitForce := true })
      (filter := filter) (pattern := trim a.pathPattern) (maxFiles := 6000) (s := ⟨st, []⟩) s'
    rw [← hout] at this
    constructor
    · rintro ⟨path', hp', hc⟩
      rw [hp] at hp'
      cases hp'
      obtain ⟨log, e⟩ := this.2 hc
      rw [e]
      exact ⟨rfl, rfl⟩
    · rintro ⟨h1, h2⟩
      exact ⟨path, hp, this.1 ⟨out.2.log, by obtain ⟨o, s, l⟩ := out; cases h1; cases h2; rfl⟩⟩
  have hpan : r = .panic ↔ out.1 = .panic := by
    rw [hr]
    generalize out.1 = o
    cases o <;> simp [finish]
  rw [hpan]
  refine ⟨⟨fun h => (key fi).2 ⟨h, hfi.symm⟩, fun h => ((key fi).1 h).1⟩, fun h => ⟨fi, (key fi).2 ⟨h, hfi.symm⟩⟩, fun ⟨s', h⟩ => ((key s').1 h).1⟩

/-- C111: the cache is poisoned exactly if a comparison was made that crashes the parser in the state in which it began. -/
theorem C111_poisoned {srv : Server} (hb : srv.build = .release) {c : Config W.State} (h : Reachable W srv c) :
    c.sh.poisoned = true ↔ ∃ id a ho st fi r t, Entry.computed id a ho st fi r t ∈ c.sh.log ∧ CrashesParser W srv a st fi := by
  constructor
  · intro hp
    obtain ⟨pre, id, a, ho, st, fi, t, post, e⟩ := (poison h).some_ hp
    have hm : Entry.computed id a ho st fi .panic t ∈ c.sh.log := by rw [e]; simp
    exact ⟨id, a, ho, st, fi, _, t, hm, (C111_computed hb h hm).1.1 rfl⟩
  · rintro ⟨id, a, ho, st, fi, r, t, hm, hc⟩
    cases hp : c.sh.poisoned with
    | true => rfl
    | false => exact absurd ((C111_computed hb h hm).1.2 hc ▸ hm) ((poison h).none_ hp id a ho st fi t)

/-- C111: the request that made such a comparison dies at once, and no comparison is made after it. -/
theorem C111_last {srv : Server} (hb : srv.build = .release) {c : Config W.State} (h : Reachable W srv c) {pre post : List (Entry W.State)} {id : Nat}
    {a : CompareArgs} {ho : HashOrder} {st fi : W.State} {r : Res (List ExtrinsicDiff)} {t : Nat} (hl : c.sh.log = pre ++ .computed id a ho st fi r t :: post)
    (hc : CrashesParser W srv a st fi) :
    (∃ post', post = .died id :: post') ∧ ∀ id' a' ho' st' fi' r' t', Entry.computed id' a' ho' st' fi' r' t' ∉ post := by
  have hm : Entry.computed id a ho st fi r t ∈ c.sh.log := by rw [hl]; simp
  obtain rfl := (C111_computed hb h hm).1.2 hc
  exact (poison h).last _ _ _ _ _ _ _ _ hl

/-! ### Requests -/

/-- What has become of the request number `id`. -/
theorem known_of {s : Site} {st : SiteState W.State} (hR : s.Reachable W st) {k : Nat} {r : HttpRequest} {id : Nat}
    (hk : st.inbox[k]? = some (r, .inr id)) {req : Request} (ha : s.accept r = .run req) :
    ∃ pc, st.conf.threads[id]? = some pc ∧ Doing W s.srv st.conf id req pc (own id st.conf.sh.log) := by
  obtain ⟨req', pc, h1, h2, h3⟩ := (sound hR).known k r _ hk
  rw [ha] at h1
  cases h1
  exact ⟨pc, h2, h3⟩

theorem died_own {σ : Type} {id : Nat} {log : List (Entry σ)} : Entry.died id ∈ log ↔ Entry.died id ∈ own id log :=
  ⟨fun h => mem_own h (decide_eq_true rfl), fun h => (List.mem_filter.1 h).1⟩

/-- C111: once nothing is left to do, the requests without an answer are exactly those that have died while they worked. -/
theorem C111_unanswered {s : Site} (hb : s.srv.build = .release) {st : SiteState W.State} (hR : s.Reachable W st) (hd : AllDone st.conf) {k : Nat}
    (hk : k < st.inbox.length) :
    (¬ ∃ resp, s.Replied st k resp) ↔ ∃ r id, st.inbox[k]? = some (r, .inr id) ∧ Entry.died id ∈ st.conf.sh.log := by
  constructor
  · intro h
    exact (C90_settled hb hR hd hk).resolve_left h
  · rintro ⟨r, id, hx, hm⟩ ⟨resp, h⟩
    rw [died_own] at hm
    rcases replied_own hR h hx with ⟨a, x, cached, t, e, -⟩ | ⟨repo, x, e, -⟩ | ⟨handler, e, -⟩ <;> rw [e] at hm <;> simp at hm

/-- C111: only requests for comparisons and for branches, in one of the repositories, ever die. -/
theorem C111_who {s : Site} {m : Machine} {args : List Str} {cmd : ServerCmd} (hS : s.Started m args cmd) {st : SiteState W.State} (hR : s.Reachable W st)
    {k : Nat} {r : HttpRequest} {id : Nat} (hk : st.inbox[k]? = some (r, .inr id)) (hd : Entry.died id ∈ st.conf.sh.log) :
    (Requests r (str% "/compare") ∧ ∃ a, s.accept r = .run (.compare a) ∧ a.repo ∈ cmd.repos) ∨
      (Requests r (str% "/branches") ∧ ∃ repo f, s.accept r = .run (.branches repo f) ∧ repo ∈ cmd.repos) := by
  obtain ⟨req, pc, h1, h2, h3⟩ := (sound hR).known k r _ hk
  have serves : ∀ n, s.srv.repos n ≠ none → n ∈ cmd.repos := fun n hn => by
    by_contra h
    exact hn ((C89_serves hS n).2.1 h).1
  have hroute : ∀ {req}, s.accept r = .run req → (∃ a, req = .compare a) ∨ (∃ n f, req = .branches n f) → ∃ hd a, route r = some hd ∧ address hd = some a ∧
      ((∃ a', req = .compare a' ∧ a = str% "/compare") ∨ ∃ n f, req = .branches n f ∧ a = str% "/branches") := by
    intro req h hq
    unfold Site.accept at h
    cases hr : route r with
    | none => rw [hr] at h; cases h
    | some handler =>
      rw [hr] at h
      cases handler with
      | root => cases h; rcases hq with ⟨_, hq⟩ | ⟨_, _, hq⟩ <;> cases hq
      | mergeRequests => cases h; rcases hq with ⟨_, hq⟩ | ⟨_, _, hq⟩ <;> cases hq
      | compareCommit => cases h; rcases hq with ⟨_, hq⟩ | ⟨_, _, hq⟩ <;> cases hq
      | files t => cases h
      | badge => cases h
      | version => dsimp only at h; split at h <;> cases h
      | compare =>
        dsimp only at h
        split at h
        · cases h
        · cases h; exact ⟨_, _, rfl, rfl, .inl ⟨_, rfl, rfl⟩⟩
      | branches =>
        dsimp only at h
        split at h
        · cases h
        · cases h; exact ⟨_, _, rfl, rfl, .inr ⟨_, _, rfl, rfl⟩⟩
  rw [died_own] at hd
  generalize own id st.conf.sh.log = es at h3 hd
  cases h3 <;> simp only [List.mem_singleton, List.not_mem_nil, reduceCtorEq] at hd
  · rename_i a hk' _
    obtain ⟨_, _, g1, g2, ⟨_, g3, rfl⟩ | ⟨_, _, g3, _⟩⟩ := hroute h1 (.inl ⟨_, rfl⟩)
    · exact .inl ⟨(C89_route r g2).1 g1, a, h1, serves _ hk'⟩
    · cases g3
  · rename_i repo f ho
    obtain ⟨_, _, g1, g2, ⟨_, g3, _⟩ | ⟨_, _, g3, rfl⟩⟩ := hroute h1 (.inr ⟨_, _, rfl⟩)
    · cases g3
    · exact .inr ⟨(C89_route r g2).1 g1, repo, f, h1, serves _ ho.1⟩

/-- C111: a request for a comparison dies exactly because a comparison was made that crashes the parser in the state in which it began: for this request,
which then dies at once, or for another one, which had died before. -/
theorem C111_compare {s : Site} (hb : s.srv.build = .release) {st : SiteState W.State} (hR : s.Reachable W st) {k : Nat} {r : HttpRequest} {id : Nat}
    (hk : st.inbox[k]? = some (r, .inr id)) {a : CompareArgs} (ha : s.accept r = .run (.compare a)) :
    Entry.died id ∈ st.conf.sh.log ↔
      ∃ before id' a' ho s0 s1 res t between after,
        st.conf.sh.log = before ++ .computed id' a' ho s0 s1 res t :: (between ++ .died id :: after) ∧ CrashesParser W s.srv a' s0 s1 ∧
        ((id' = id ∧ a' = a ∧ between = []) ∨ (id' ≠ id ∧ Entry.died id' ∈ between)) := by
  constructor
  · intro hd
    obtain ⟨pc, -, h3⟩ := known_of hR hk ha
    rw [died_own] at hd
    generalize own id st.conf.sh.log = es at h3 hd
    cases h3 <;> simp only [List.mem_singleton, List.not_mem_nil, reduceCtorEq] at hd
    rename_i _ hdo
    obtain ⟨before, id', a', ho, s0, s1, t, between, after, h1, h2⟩ := hdo
    have hm : Entry.computed id' a' ho s0 s1 .panic t ∈ st.conf.sh.log := by rw [h1]; simp
    exact ⟨before, id', a', ho, s0, s1, _, t, between, after, h1, (C111_computed hb (sound hR).reach hm).1.1 rfl, h2⟩
  · rintro ⟨before, id', a', ho, s0, s1, res, t, between, after, h1, -⟩
    rw [h1]
    simp

/-! ### Branches -/

/-- The programs that a request for branches has left to do. -/
theorem branching_shape {srv : Server} {c : Config W.State} (h : Reachable W srv c) :
    ∀ (i : Nat) r p, c.threads[i]? = some (.branching r p) → p = (fetchP true >>= fun _ => listP) ∨ p = listP ∨ ∃ x, p = .done x := by
  induction h with
  | init repo clock => intro i r p h; simp [initial] at h
  | @step c c' h hs ih =>
    intro i r p hp
    cases hs with
    | tick n => exact ih i r p hp
    | arrive q =>
      dsimp only at hp
      rw [List.getElem?_append] at hp
      split at hp
      · exact ih i r p hp
      · rw [List.getElem?_singleton] at hp
        split at hp
        · cases q <;> cases hp
        · cases hp
    | thread j hj =>
      obtain ⟨pc0, pc', s', h0, ha, rfl⟩ := hj
      dsimp only at hp
      rw [List.getElem?_set] at hp
      split at hp
      · split at hp
        · obtain rfl := Option.some.inj hp
          generalize hsh : c.sh = sh at ha
          generalize hq : Pc.branching r p = q at ha
          cases ha with
          | branchTake hc =>
            cases hq
            unfold branchesP
            split
            · exact .inr (.inr ⟨_, rfl⟩)
            · rename_i f _ _ _
              cases f with
              | true => exact .inl rfl
              | false => exact .inr (.inl rfl)
          | branchWork hw =>
            cases hq
            rcases ih _ _ _ h0 with rfl | rfl | ⟨x, rfl⟩
            · have hw : some ((Prog.done (expectFetched (W.git (sh.repo r) fetchAll).1)).andThen (fun _ => listP), _) = some (p, _) := hw
              obtain ⟨rfl, -⟩ := Prod.mk.inj (Option.some.inj hw)
              generalize expectFetched (W.git (sh.repo r) fetchAll).1 = o
              cases o with
              | ok u => exact .inr (.inl rfl)
              | err m => exact .inr (.inr ⟨_, rfl⟩)
              | panic => exact .inr (.inr ⟨_, rfl⟩)
              | diverge => exact .inr (.inr ⟨_, rfl⟩)
            · have hw : some ((Prog.done (expectListed (W.git (sh.repo r) printRefs).1)).andThen (fun stdout => .done (parseBranches stdout)), _) =
                some (p, _) := hw
              obtain ⟨rfl, -⟩ := Prod.mk.inj (Option.some.inj hw)
              generalize expectListed (W.git (sh.repo r) printRefs).1 = o
              cases o with
              | ok u => exact .inr (.inr ⟨_, rfl⟩)
              | err m => exact .inr (.inr ⟨_, rfl⟩)
              | panic => exact .inr (.inr ⟨_, rfl⟩)
              | diverge => exact .inr (.inr ⟨_, rfl⟩)
            · cases hw
          | @scanEnd next => cases next <;> cases hq
          | _ => cases hq
        · cases hp
      · exact ih i r p hp

/-- What a request has left to do after it ran git. -/
theorem runsGit_rest {srv : Server} {id : Nat} {repo : Str} {args : List Str} {out : GitOut} {c1 c2 : Config W.State}
    (h : RunsGit W srv id repo args out c1 c2) : ∃ p, c2.threads[id]? = some (.branching repo p) ∧
      (args = fetchAll → p = (Prog.done (expectFetched out)).andThen (fun _ => listP)) ∧
      (args = printRefs → p = (Prog.done (expectListed out)).andThen (fun stdout => .done (parseBranches stdout))) := by
  obtain ⟨hR, ⟨pc, pc', s', h0, ha, rfl⟩, ⟨rest, hpc⟩, hg⟩ := h
  rw [hpc] at h0
  cases h0
  have hlt := (List.getElem?_eq_some_iff.1 hpc).1
  have hshape := branching_shape hR _ _ _ hpc
  generalize hsh : c1.sh = sh at ha hg
  cases ha with
  | branchWork hw =>
    have hw : some (rest (W.git (sh.repo repo) args).1, (W.git (sh.repo repo) args).2) = some (_, _) := hw
    obtain ⟨h1, -⟩ := Prod.mk.inj (Option.some.inj hw)
    rw [hg] at h1
    refine ⟨_, by simp [hlt]; rfl, fun ha => ?_, fun ha => ?_⟩
    · subst ha
      rcases hshape with hs | hs | ⟨x, hs⟩
      · obtain ⟨-, rfl⟩ := Prog.git.inj (hs : Prog.git fetchAll rest = .git fetchAll _)
        exact h1.symm
      · exact absurd (Prog.git.inj (hs : Prog.git fetchAll rest = .git printRefs _)).1 (by decide)
      · cases hs
    · subst ha
      rcases hshape with hs | hs | ⟨x, hs⟩
      · exact absurd (Prog.git.inj (hs : Prog.git printRefs rest = .git fetchAll _)).1 (by decide)
      · obtain ⟨-, rfl⟩ := Prog.git.inj (hs : Prog.git printRefs rest = .git printRefs _)
        exact h1.symm
      · cases hs

/-- A request that is about to die dies. -/
theorem dying {srv : Server} {c c' : Config W.State} (hl : Later W srv c c') {id : Nat} {repo : Str}
    (h : c.threads[id]? = some (.branching repo (.done .panic))) :
    c'.threads[id]? = some (.branching repo (.done .panic)) ∨ Entry.died id ∈ c'.sh.log := by
  induction hl with
  | refl => exact .inl h
  | @step c1 c2 hl hs ih =>
    have grows := log_later (.step .refl hs)
    rcases ih with ih | ih
    · cases hs with
      | tick n => exact .inl ih
      | arrive r => exact .inl (List.getElem?_append_left (List.getElem?_eq_some_iff.1 ih).1 ▸ ih)
      | thread j hj =>
        obtain ⟨pc0, pc', s', h0, ha, rfl⟩ := hj
        by_cases hne : j = id
        · subst hne
          rw [ih] at h0
          cases h0
          generalize c1.sh = sh at ha
          cases ha with
          | branchWork hw => cases hw
          | branchPanic =>
            right
            show _ ∈ sh.log ++ [_]
            simp
        · exact .inl (by simpa [List.getElem?_set, hne] using ih)
    · obtain ⟨es, e⟩ := grows
      exact .inr (e ▸ List.mem_append_left _ ih)

/-- C111: once nothing is left to do, a request for the branches of one of the repositories has died exactly if git answered it with a message that is not
UTF-8, or with lines that are no references. -/
theorem C111_branches {s : Site} {st : SiteState W.State} (hR : s.Reachable W st) (hd : AllDone st.conf) {k : Nat} {r : HttpRequest} {id : Nat}
    (hk : st.inbox[k]? = some (r, .inr id)) {repo : Str} {f : Bool} (ha : s.accept r = .run (.branches repo f)) :
    Entry.died id ∈ st.conf.sh.log ↔ ListingCrashes W s.srv st.conf id repo f := by
  constructor
  · intro hd
    obtain ⟨pc, -, h3⟩ := known_of hR hk ha
    rw [died_own] at hd
    generalize own id st.conf.sh.log = es at h3 hd
    cases h3 <;> simp only [List.mem_singleton, List.not_mem_nil, reduceCtorEq] at hd
    rename_i ho
    exact ho.2
  · rintro ⟨c1, c2, out, e, hl, h⟩
    have key : ∃ repo, c2.threads[id]? = some (.branching repo (.done .panic)) := by
      rcases h with ⟨-, h⟩ | ⟨-, h | ⟨utf8, h, hp⟩⟩
      · obtain ⟨p, g1, g2, -⟩ := runsGit_rest h
        rw [g2 rfl] at g1
        exact ⟨_, g1⟩
      · obtain ⟨p, g1, -, g2⟩ := runsGit_rest h
        rw [g2 rfl] at g1
        exact ⟨_, g1⟩
      · obtain ⟨p, g1, -, g2⟩ := runsGit_rest h
        rw [g2 rfl] at g1
        have g1 : c2.threads[id]? = some (.branching repo (.done (parseBranches out))) := g1
        rw [(C62_exact _).2.2 hp] at g1
        exact ⟨_, g1⟩
    obtain ⟨repo', h'⟩ := key
    rcases dying hl h' with h' | h'
    · cases hd _ _ h'
    · exact h'

/-! ### Concrete cases -/

/-- Two requests for the same comparison come.  The first one crashes the parser; both die. -/
theorem C111_example : ∃ st, exSite.Reachable exBadWorld st ∧ AllDone st.conf ∧ exSite.srv.build = .release ∧
    st.inbox = [(exCompareRequest, .inr 0), (exCompareRequest, .inr 1)] ∧ exSite.accept exCompareRequest = .run (.compare exAskArgs) ∧
    (∃ id a ho s0 s1 r t, Entry.computed id a ho s0 s1 r t ∈ st.conf.sh.log ∧ CrashesParser exBadWorld exSite.srv a s0 s1) ∧
    Entry.died 0 ∈ st.conf.sh.log ∧ Entry.died 1 ∈ st.conf.sh.log := by
  have h0 : exSite.Reachable exBadWorld ⟨initial exBadWorld (fun _ => str% "start") 7, []⟩ := .init _ _
  have h1 := Site.Reachable.step h0 (.later _ exCompare_accepted)
  obtain ⟨c, r, fi, k1, k2, k3, -, -, -, -, k7, -⟩ := C54_computes (a := exAskArgs) (sound h0).reach (by intro pc hp; cases hp) rfl
    (by show exSite.srv.repos (str% "repo") ≠ none; exact fun h => nomatch h) rfl idOrder
  have hpan : isPanic r = true := by
    have : r = ((doCompare exSite.srv idOrder exAskArgs).run exBadWorld (str% "start")).1 := congrArg Prod.fst k3
    rw [this]
    decide +kernel
  have hpo : c.sh.poisoned = true := k7.2 (by cases r <;> simp [isPanic] at hpan; rfl)
  have h2 : Ahead exBadWorld exSite _ ⟨c, _⟩ := (ahead_of_later (s := exSite) k1).2 (by rw [k2]; simp) [(exCompareRequest, .inr 0)]
  have hR : exSite.Reachable exBadWorld ⟨c, [(exCompareRequest, .inr 0)]⟩ := reachable_ahead h1 h2
  have hlen : c.threads.length = 1 := by rw [k2]; rfl
  have hR' := Site.Reachable.step hR (.later _ exCompare_accepted)
  obtain ⟨st, g1, g2, g3⟩ := C89_settles hR'
  have hin : st.inbox = [(exCompareRequest, .inr 0), (exCompareRequest, .inr 1)] := by rw [g2]; simp [hlen]
  have hRs := reachable_ahead hR' g1
  have hps : st.conf.sh.poisoned = true := (C54_poisoned_forever (sound hR').reach hpo (later_of_ahead g1)).1
  have hS : Entry.died 0 ∈ st.conf.sh.log ∧ Entry.died 1 ∈ st.conf.sh.log := by
    obtain ⟨cmd, hS⟩ := exSite_started
    have hrepo : exAskArgs.repo ∈ cmd.repos := (C89_serves hS (str% "repo")).1.1 (by show _ ∈ [str% "repo"]; simp)
    have dead : ∀ k, k < 2 → (∀ resp, ¬ exSite.Replied st k resp) → Entry.died k ∈ st.conf.sh.log := by
      intro k hk hn
      obtain ⟨r, id, e, hd⟩ := (C111_unanswered rfl hRs g3 (k := k) (by rw [hin]; exact hk)).1 fun ⟨resp, h⟩ => hn resp h
      rw [hin] at e
      match k, hk with
      | 0, _ => cases e; exact hd
      | 1, _ => cases e; exact hd
    have h00 : ∀ resp, ¬ exSite.Replied (W := exBadWorld) ⟨c, [(exCompareRequest, .inr 0)]⟩ 0 resp := by
      intro resp h
      obtain ⟨pre, id, a, ho, s0, s1, t, post, e⟩ := (poison (sound hR).reach).some_ hpo
      have hm : Entry.died id ∈ c.sh.log := by rw [e]; simp
      have hid : id = 0 := by
        by_contra hne
        have := reachable_threads_own (sound hR).reach (id := id) (by show c.threads.length ≤ id; omega)
        rw [died_own] at hm
        rw [show own id c.sh.log = [] from this] at hm
        cases hm
      subst hid
      rcases replied_own hR h rfl with ⟨a, x, cached, t, e, -⟩ | ⟨repo, x, e, -⟩ | ⟨handler, e, -⟩ <;>
        (rw [died_own] at hm; dsimp only at e; rw [e] at hm; simp at hm)
    have h01 : ∀ resp, ¬ exSite.Replied (W := exBadWorld) ⟨c, [(exCompareRequest, .inr 0)]⟩ 1 resp := by
      intro resp h
      cases h with
      | now h => cases h
      | compared h => cases h
      | listed h => cases h
      | shown h => cases h
    have hah := ahead_trans (.step .refl (.later _ exCompare_accepted)) g1
    exact ⟨dead 0 (by decide) (C90_silenced hS hR hpo hah (x := .inr 0) (by rw [hin]; rfl) exCompare_requests (C69_serialized _)
        ((C69_args _ exAskArgs).1 rfl) hrepo h00),
      dead 1 (by decide) (C90_silenced hS hR hpo hah (x := .inr 1) (by rw [hin]; rfl) exCompare_requests (C69_serialized _)
        ((C69_args _ exAskArgs).1 rfl) hrepo h01)⟩
  exact ⟨st, hRs, g3, rfl, hin, exCompare_accepted, (C111_poisoned rfl (sound hRs).reach).1 hps, hS⟩

/-- Git refuses everything with a message that is not UTF-8. -/
def exGarbledWorld : World := { exListWorld with git := fun s _ => (.exited false [] [] false, s) }

/-- A request for branches comes, git answers with something that is not UTF-8, and the request dies. -/
theorem C111_example_branches : ∃ st r, exSite.Reachable exGarbledWorld st ∧ AllDone st.conf ∧ st.inbox[0]? = some (r, .inr 0) ∧
    exSite.accept r = .run (.branches (str% "repo") false) ∧ ListingCrashes exGarbledWorld exSite.srv st.conf 0 (str% "repo") false := by
  have hq : parseBranchQuery strictUtf8 (utf8 (str% "repo=r%65po")) = some (str% "repo", false) :=
    (C84_query _ exSite_spelled _ _).2 ⟨⟨[], [], rfl, by simp, by simp⟩, .inr ⟨by simp [Never], rfl⟩⟩
  have hro : route ⟨str% "GET", utf8 (str% "/br%61nches"), utf8 (str% "repo=r%65po")⟩ = some .branches := by decide +kernel
  have hacc : exSite.accept ⟨str% "GET", utf8 (str% "/br%61nches"), utf8 (str% "repo=r%65po")⟩ = .run (.branches (str% "repo") false) := by
    unfold Site.accept
    rw [hro]
    dsimp only
    rw [show exSite.u = strictUtf8 from rfl, hq]
  have h1 : exSite.Reachable exGarbledWorld _ := .step (.init (fun _ => ()) 0) (.later _ hacc)
  have h2 := Site.Reachable.step h1 (.thread 0 ⟨_, _, _, rfl, .branchTake ⟨rfl, fun _ => rfl⟩, rfl⟩)
  have h3 := Site.Reachable.step h2 (.thread 0 ⟨_, _, _, rfl, .branchWork (exList_run exGarbledWorld () _ (by decide) rfl), rfl⟩)
  have h4 := Site.Reachable.step h3 (.thread 0 ⟨.branching (str% "repo") (.done .panic), _, _, rfl, .branchPanic, rfl⟩)
  have one : ∀ c : Config Unit, c.threads = [.finished] → AllDone c := fun c hc i pc h => by
    rw [hc] at h
    match i, h with
    | 0, h => exact (Option.some.inj h).symm
  exact ⟨_, _, h4, one _ rfl, rfl, hacc, (C111_branches (k := 0) h4 (one _ rfl) rfl hacc).1 (List.mem_append_right _ List.mem_cons_self)⟩

end Swc
