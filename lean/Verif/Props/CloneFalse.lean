/-
C99: what is not compared.  Where the programs, in terms of what git documents, do not do what they say.
-/
import Verif.Props.Clone

namespace Swc

open Spec

variable {W : World} {view : W.State → Clone}

theorem noCommit (hG : RealGit W view) {s : W.State} {x : Str} (h : ¬ IsHash x) : (view s).here.commits x = none := by
  by_contra h'
  exact h (hG.hashes s x h')

/-- C99: what is checked out by the program without `--git-force`: a branch of the clone if there is one of this name, otherwise a revision, otherwise a branch of
the origin as last seen; and if there is none either, the name is taken for a file, and nothing is checked out. -/
theorem C99_unforced (hG : RealGit W view) {s s' : W.State} {pull : Bool} {x : Str} (hx : RefName x) {G : List Event} (h : CheckedOut W x pull false s G s') :
    ∃ L s0, Fetched W x pull s L s0 ∧
      ((((view s0).Switches x <|> (view s0).seen x) = some (view s').head) ∨
        ((view s0).Switches x = none ∧ (view s0).seen x = none ∧ HasPath (view s0).head x ∧ (view s').head = (view s0).head)) := by
  obtain ⟨L0, s0, L1, hf, -, h⟩ := h
  refine ⟨L0, s0, hf, ?_⟩
  rcases h with ⟨-, out, hw, hs, -⟩ | ⟨h, -⟩ | ⟨h, -⟩
  · have hc := hG.checkout s0 x hx
    rw [hw] at hc
    unfold Clone.Switches
    cases h1 : (view s0).here.heads x with
    | some c => exact .inl (congrArg some (hc.switch c h1).2.head.symm)
    | none =>
      cases h2 : (view s0).Denotes x with
      | some c => exact .inl (congrArg some (hc.detach c h1 h2).2.head.symm)
      | none =>
        cases h3 : (view s0).seen x with
        | some c =>
          by_cases hp : HasPath (view s0).head x
          · exact absurd hs (hc.unclear c h1 h2 h3 hp).1
          · by_cases hr : RoomFor (view s0).here.heads x
            · exact .inl (congrArg some (hc.create c h1 h2 h3 hp hr).2.head.symm)
            · exact absurd hs (hc.noRoom h1 h2 (by rw [h3]; exact nofun) hp hr).1
        | none =>
          by_cases hp : HasPath (view s0).head x
          · exact .inr ⟨rfl, rfl, hp, (hc.restore h1 h2 h3 hp).2.head⟩
          · exact absurd hs (hc.unknown h1 h2 h3 hp).1
  · nomatch h
  · nomatch h

/-- C99: the newest commit without `--git-force`, the first time: with `--git-pull`, if there is no branch of this name in the clone yet. -/
theorem C99_first (hG : RealGit W view) {s : W.State} {x : Str} (hx : RefName x) {c : Snapshot} (ho : (view s).online = true) (hb : (view s).origin.OnlyBranch x c)
    (hr : RoomFor (view s).seen x) (hr' : RoomFor (view s).here.heads x) (h0 : (view s).here.heads x = none) (h1 : (view s).here.tags x = none) (h2 : ¬ IsHash x)
    (h3 : ∀ s, (view s).lastSeen x = none ∧ (view s).other x = none) (hp : ¬ HasPath (view s).head x) :
    ∃ G s', CheckedOut W x true false s G s' ∧ (view s').head = c ∧ (view s').branch = some x ∧ (view s').here.heads x = some c := by
  have hf := hG.fetch s x hx
  have hs := hf.works ho (.inr (.inr (by rw [hb.2.2]; exact nofun))) (fun _ _ => hr)
  have e0 := hf.same.heads
  have hc := hG.checkout (W.git s [str% "fetch", str% "origin", x]).2 x hx
  have hd : (view (W.git s [str% "fetch", str% "origin", x]).2).Denotes x = none := by
    unfold Clone.Denotes
    rw [noCommit hG h2, hf.tags, h1, e0, h0, (h3 _).1, (h3 _).2]
    rfl
  obtain ⟨k1, k2⟩ := hc.create c (by rw [e0]; exact h0) hd (hf.branch hs c hb) (by rw [hf.same.head]; exact hp) (by rw [e0]; exact hr')
  refine ⟨_, _, ⟨_, _, _, .inl ⟨rfl, _, rfl, hs, rfl⟩, rfl, .inl ⟨rfl, _, rfl, k1, rfl⟩⟩, k2.head, k2.branch, ?_⟩
  rw [k2.heads]
  exact if_pos rfl

/-- C99, false for `--git-pull` without `--git-force`: "This ensures that you get the newest commit on a branch" (`core/src/lib.rs:131-135`).  If there is a
branch of this name in the clone, it is compared, whatever is at the origin: the branch is not moved. -/
theorem C99_false_newest (hG : RealGit W view) {s s' : W.State} {x : Str} (hx : RefName x) {c : Snapshot} (h0 : (view s).here.heads x = some c) {G : List Event}
    (h : CheckedOut W x true false s G s') : (view s').head = c ∧ (view s').here.heads x = some c := by
  obtain ⟨L0, s0, L1, hf, -, h⟩ := h
  rcases hf with ⟨-, out, hw, -⟩ | ⟨h, -⟩
  · rcases h with ⟨-, out', hw', -⟩ | ⟨h, -⟩ | ⟨h, -⟩
    · have hf := hG.fetch s x hx
      rw [hw] at hf
      have hc := (hG.checkout s0 x hx).switch c (by rw [hf.same.heads]; exact h0)
      rw [hw'] at hc
      refine ⟨hc.2.head, ?_⟩
      rw [hc.2.heads]
      exact if_pos rfl
    · nomatch h
    · nomatch h
  · nomatch h

/-- C99, false for names of files: if there is no revision of this name, but a file or a directory in the commit that happens to be checked out, then checking out
succeeds and does nothing; that commit is compared. -/
theorem C99_false_path (hG : RealGit W view) {s : W.State} {x : Str} (hx : RefName x) (h0 : (view s).Switches x = none) (h1 : (view s).seen x = none)
    (hp : HasPath (view s).head x) : ∃ G s', CheckedOut W x false false s G s' ∧ (view s').head = (view s).head := by
  unfold Clone.Switches at h0
  cases e : (view s).here.heads x with
  | some c => rw [e] at h0; nomatch h0
  | none =>
    rw [e] at h0
    obtain ⟨k1, k2⟩ := (hG.checkout s x hx).restore e h0 h1 hp
    exact ⟨_, _, ⟨_, _, _, .inr ⟨rfl, rfl, rfl⟩, rfl, .inl ⟨rfl, _, rfl, k1, rfl⟩⟩, k2.head⟩

/-- C99, false for the branch that is checked out, if it is not at the origin: the server first moves it to the other revision, so that this is compared with
itself. -/
theorem C99_false_moved (hG : RealGit W view) {s : W.State} {x b : Str} (hx : RefName x) (hb : RefName b) {c : Snapshot} (h : Obtains (view s) false x c)
    (h0 : (view s).branch = some b) (h1 : (view s).here.tags b = none) (h2 : ¬ IsHash b) (hu : Unshadowed (view s) b) (hns : NotSeen (view s) b)
    (hp : ¬ HasPath c b ∧ ¬ HasPath c (atOrigin b)) (hne : (view s).branch ≠ some (atOrigin b)) :
    ∃ G1 s1 G2 s2, CheckedOut W x false true s G1 s1 ∧ CheckedOut W b false true s1 G2 s2 ∧ (view s1).head = c ∧ (view s2).head = c := by
  obtain ⟨G1, s1, g1, e1, e2, e3⟩ := C99_checkout hG hx h
  have hb1 : (view s1).here.heads b = some c := by rw [e3, if_pos h0]
  -- resets change neither tags nor what is seen
  have keep : (view s1).here.tags = (view s).here.tags ∧ (view s1).seen = (view s).seen := by
    obtain ⟨L0, s0, L1, hf, -, g1⟩ := g1
    rcases hf with ⟨hf, -⟩ | ⟨-, -, rfl⟩
    · nomatch hf
    · have key : ∀ {t t' : W.State} {out z}, z.head? ≠ some '-' → W.git t [str% "reset", str% "--hard", z] = (out, t') →
          (view t').here.tags = (view t).here.tags ∧ (view t').seen = (view t).seen := by
        intro t t' out z hz hw
        have hr := hG.reset t z hz
        rw [hw] at hr
        by_cases hp : HasPath (view t).head z
        · have := (hr.unknown (.inr hp)).2
          exact ⟨by rw [this.here], this.seen⟩
        · cases hd : (view t).Denotes z with
          | none =>
            have := (hr.unknown (.inl hd)).2
            exact ⟨by rw [this.here], this.seen⟩
          | some d =>
            have := (hr.works d hd hp).2
            exact ⟨this.tags, this.seen⟩
      rcases g1 with ⟨h, -⟩ | ⟨-, out, hw, -⟩ | ⟨-, sm, L2, L3, ⟨out, hw, -⟩, ⟨out', hw', -⟩, -⟩
      · nomatch h
      · exact key (origin_start x) hw
      · have a1 := key (origin_start x) hw
        have a2 := key hx.start.2.1 hw'
        exact ⟨a2.1.trans a1.1, a2.2.trans a1.2⟩
  have hden : (view s1).Denotes (atOrigin b) = none := by
    rw [denotes_origin hG (by rw [keep.1]; exact hu.tag) (by rw [e3, if_neg hne]; exact hu.head), keep.2, hns.seen]
    by_contra h
    exact hG.notations s1 b (by simpa using h) hns.plain
  obtain ⟨r1, r2⟩ := (hG.reset s1 (atOrigin b) (origin_start b)).unknown (.inl hden)
  generalize hw : W.git s1 [str% "reset", str% "--hard", atOrigin b] = r at r1 r2
  obtain ⟨out, sm⟩ := r
  have hd : (view sm).Denotes b = some c := by
    unfold Clone.Denotes
    rw [noCommit hG h2, r2.here, keep.1, h1, hb1]
    rfl
  obtain ⟨q1, q2⟩ := (hG.reset sm b hb.start.2.1).works c hd (by rw [r2.head, e1]; exact hp.1)
  exact ⟨G1, s1, _, _, g1, ⟨_, s1, _, .inr ⟨rfl, rfl, rfl⟩, rfl, .inr (.inr ⟨rfl, sm, _, _, ⟨out, hw, r1, rfl⟩, ⟨_, rfl, q1, rfl⟩, rfl⟩)⟩, e1, q2.head⟩

/-- C99, false for tags that are at the origin but not yet in the clone, although the start page offers them: they cannot be compared. -/
theorem C99_false_tag_new (hG : RealGit W view) {s : W.State} {t : Str} (ht : RefName t) (ho : (view s).online = true) (h0 : (view s).origin.tags t ≠ none)
    (h1 : (view s).here.tags t = none) (h2 : (view s).here.heads t = none) (h3 : ¬ IsHash t) (h4 : ∀ s, (view s).lastSeen t = none ∧ (view s).other t = none)
    (hu : Unshadowed (view s) t) (hns : NotSeen (view s) t) : ∃ G s', CheckoutFails W t true true s G s' := by
  have hf := hG.fetch s t ht
  have hnb : ¬ ∃ c, (view s).origin.OnlyBranch t c := fun ⟨c, hc⟩ => h0 hc.2.1
  have hs := hf.works ho (.inr (.inl h0)) (fun c hc => absurd ⟨c, hc⟩ hnb)
  generalize hw : W.git s [str% "fetch", str% "origin", t] = r at hf hs
  obtain ⟨out, s0⟩ := r
  have hden : (view s0).Denotes (atOrigin t) = none := by
    rw [denotes_origin hG (by rw [hf.tags]; exact hu.tag) (by rw [hf.same.heads]; exact hu.head), hf.noBranch (.inr hnb), hns.seen]
    by_contra h
    exact hG.notations s0 t (by simpa using h) hns.plain
  obtain ⟨r1, r2⟩ := (hG.reset s0 (atOrigin t) (origin_start t)).unknown (.inl hden)
  generalize hw1 : W.git s0 [str% "reset", str% "--hard", atOrigin t] = r at r1 r2
  obtain ⟨out1, s1⟩ := r
  have hd : (view s1).Denotes t = none := by
    unfold Clone.Denotes
    rw [noCommit hG h3, r2.here, hf.tags, h1, hf.same.heads, h2, (h4 s1).1, (h4 s1).2]
    rfl
  obtain ⟨q1, -⟩ := (hG.reset s1 t ht.start.2.1).unknown (.inl hd)
  exact ⟨_, _, .inr ⟨_, s0, _, .inl ⟨rfl, out, hw, hs, rfl⟩, rfl, .inr ⟨rfl, s1, _, _, ⟨out1, hw1, r1, rfl⟩, ⟨_, rfl, q1, rfl⟩, rfl⟩⟩⟩

/-- C99: after everything has been fetched (the button "fetch" of the start page), the tags of the origin can be compared that are not in the clone under the same
name with another commit. -/
theorem C99_all_tags (hG : RealGit W view) (hn : NobodyPushes W view) {s : W.State} {out : GitOut} {s' : W.State}
    (hw : W.git s [str% "fetch", str% "--all", str% "--prune", str% "--tags"] = (out, s')) (hs : Success out) (ho : (view s).online = true) {t : Str} {c : Snapshot}
    (h0 : (view s).origin.tags t = some c) (h1 : (view s).origin.heads t = none) (h2 : ¬ IsHash t) (hp : ¬ HasPath (view s).head t)
    (hplain : NoNotation (atOrigin t)) (hu : Unshadowed (view s) t) (hfree : (view s).origin.tags (atOrigin t) = none) : Obtains (view s') true t c := by
  have hf := hG.fetchAll s
  have hno := hn s [str% "fetch", str% "--all", str% "--prune", str% "--tags"]
  rw [hw] at hf hno
  refine .tag ⟨?_, by rw [hf.same.heads]; exact hu.head, by rw [hf.same.head]; exact hu.file⟩ (hf.allTags hs t c h0) h2 (by rw [hf.same.head]; exact hp)
    ⟨hplain, by rw [hf.allSeen hs]; exact h1⟩ (fun _ => ⟨hno.2.trans ho, by rw [hno.1, h0]; exact nofun⟩)
  by_contra h
  obtain ⟨d, hd⟩ := Option.ne_none_iff_exists'.1 h
  have := hf.newTags _ d hu.tag hd
  rw [hfree] at this
  nomatch this

/-- C99, false for tags that have been moved at the origin: what was the tag when it was first fetched is compared, and fetching everything does not help. -/
theorem C99_false_tag (hG : RealGit W view) (hn : NobodyPushes W view) {s : W.State} {t : Str} (ht : RefName t) (ho : (view s).online = true) {c c' : Snapshot}
    (h0 : (view s).origin.tags t = some c') (h1 : (view s).here.tags t = some c) (h2 : (view s).origin.heads t = none) (h3 : ¬ IsHash t) (hp : ¬ HasPath (view s).head t)
    (hu : Unshadowed (view s) t) (hns : NotSeen (view s) t) (hfree : (view s).origin.tags (atOrigin t) = none) :
    (∃ G s', CheckedOut W t true true s G s' ∧ (view s').head = c) ∧
    ∃ G s', CheckedOut W t true true (W.git s [str% "fetch", str% "--all", str% "--prune", str% "--tags"]).2 G s' ∧ (view s').head = c := by
  constructor
  · obtain ⟨G, s', h, e, -⟩ := C99_checkout hG (s := s) (pull := true) ht
      (.tag hu h1 h3 hp hns (fun _ => ⟨ho, by rw [h0]; exact nofun⟩))
    exact ⟨G, s', h, e⟩
  · have hf := hG.fetchAll s
    have hno := hn s [str% "fetch", str% "--all", str% "--prune", str% "--tags"]
    have hobt : Obtains (view (W.git s [str% "fetch", str% "--all", str% "--prune", str% "--tags"]).2) true t c := by
      refine .tag ⟨?_, by rw [hf.same.heads]; exact hu.head, by rw [hf.same.head]; exact hu.file⟩ (hf.oldTags t c h1) h3 (by rw [hf.same.head]; exact hp)
        ⟨hns.plain, ?_⟩ (fun _ => ⟨hno.2.trans ho, by rw [hno.1, h0]; exact nofun⟩)
      · by_contra h
        obtain ⟨d, hd⟩ := Option.ne_none_iff_exists'.1 h
        have := hf.newTags _ d hu.tag hd
        rw [hfree] at this
        nomatch this
      · rcases hf.someSeen t with e | e
        · rw [e]; exact hns.seen
        · rw [e]; exact h2
    obtain ⟨G, s', h, e, -⟩ := C99_checkout hG ht hobt
    exact ⟨G, s', h, e⟩

/-- C99, false after someone has asked for a revision that is not one: a request to compare `a:origin/x` is refused, but leaves a branch of the clone behind which
git takes for the branch `x` of the origin ever after; what is compared as `x` is what `a` was at that moment. -/
theorem C99_false_poison (hG : RealGit W view) (hn : NobodyPushes W view) {s : W.State} {a x : Str} (ha : RefName a) (hx : RefName x) {ca cx : Snapshot}
    (ho : (view s).online = true) (h0 : (view s).origin.OnlyBranch a ca) (h1 : (view s).origin.OnlyBranch x cx) (hu : Unshadowed (view s) x)
    (hfree : (view s).origin.tags (atOrigin x) = none) (hr : RoomFor (view s).seen a ∧ RoomFor (view s).seen x ∧ RoomFor (view s).here.heads (atOrigin x))
    (hrO : RoomFor (view s).origin.heads x) :
    ∃ G s', CheckoutFails W (a ++ ':' :: atOrigin x) true true s G s' ∧ ∀ pull, Obtains (view s') pull x ca ∧ ∃ G s'', CheckedOut W x pull true s' G s'' ∧ (view s'').head = ca := by
  have hox : RefName (atOrigin x) := by
    obtain ⟨⟨h1, h2, h3⟩, ⟨h4, h5, h6⟩, h7, h8⟩ := hx
    refine ⟨⟨nofun, nofun, nofun⟩, ⟨?_, ?_, ?_⟩, nofun, ?_⟩
    · simpa [atOrigin] using h4
    · simpa [atOrigin] using h5
    · simpa [atOrigin] using h6
    · refine ⟨?_, ?_, ?_, ?_⟩ <;> (rintro ⟨t, h⟩; cases h)
  have hf := hG.fetchInto s a (atOrigin x) ha hox
  obtain ⟨f1, f2, f3, f4, f5⟩ := hf.works ca ho h0 hu.head hr.1 hr.2.2
  have hno := hn s [str% "fetch", str% "origin", a ++ ':' :: atOrigin x]
  have htag := hf.newTags (atOrigin x)
  generalize hw : W.git s [str% "fetch", str% "origin", a ++ ':' :: atOrigin x] = r at f1 f2 f3 f4 f5 hno htag
  obtain ⟨out, s0⟩ := r
  have hcol : ∀ t y, ':' ∈ y → y.head? ≠ some ':' → y.head? ≠ some '-' →
      ¬ Success (W.git t [str% "reset", str% "--hard", y]).1 ∧ AsBefore (view t) (view (W.git t [str% "reset", str% "--hard", y]).2) :=
    fun t y h1 h2 h3 => (hG.reset t y h3).unknown (.inl (hG.colons t y h1 h2))
  have hhead : ∀ c, a.head? ≠ some c → (a ++ ':' :: atOrigin x).head? ≠ some c := by
    intro c h
    have := ha.start.1
    cases a with
    | nil => exact absurd rfl this
    | cons y a => exact h
  have m0 : ':' ∈ a ++ ':' :: atOrigin x := List.mem_append_right _ List.mem_cons_self
  obtain ⟨r1, r2⟩ := hcol s0 (atOrigin (a ++ ':' :: atOrigin x)) (List.mem_append_right _ m0) nofun (origin_start _)
  have hno1 := hn s0 [str% "reset", str% "--hard", atOrigin (a ++ ':' :: atOrigin x)]
  generalize hw1 : W.git s0 [str% "reset", str% "--hard", atOrigin (a ++ ':' :: atOrigin x)] = r at r1 r2 hno1
  obtain ⟨out1, s1⟩ := r
  have hcolon : a.head? ≠ some ':' := by
    intro h
    exact ha.chars.1 (List.mem_of_mem_head? h)
  obtain ⟨q1, q2⟩ := hcol s1 (a ++ ':' :: atOrigin x) m0 (hhead _ hcolon) (hhead _ ha.start.2.1)
  have hno2 := hn s1 [str% "reset", str% "--hard", a ++ ':' :: atOrigin x]
  generalize hw2 : W.git s1 [str% "reset", str% "--hard", a ++ ':' :: atOrigin x] = r at q1 q2 hno2
  obtain ⟨out2, s2⟩ := r
  refine ⟨_, s2, .inr ⟨_, s0, _, .inl ⟨rfl, out, hw, f1, rfl⟩, rfl, .inr ⟨rfl, s1, _, _, ⟨out1, hw1, r1, rfl⟩, ⟨out2, hw2, q1, rfl⟩, rfl⟩⟩, fun pull => ?_⟩
  have hobt : Obtains (view s2) pull x ca := by
    refine .shadow ?_ ?_ ?_ (fun _ => ⟨?_, ?_, fun c hc => ?_⟩)
    · rw [q2.here, r2.here]
      rcases htag with e | ⟨-, e⟩
      · rw [e]; exact hu.tag
      · rw [e]; exact hfree
    · rw [q2.here, r2.here, f2]
      exact if_pos rfl
    · rw [q2.head, r2.head, f4]
      exact hu.file
    · rw [hno2.2, hno1.2, hno.2]; exact ho
    · rw [hno2.1, hno1.1, hno.1]
      exact .inr (.inr (by rw [h1.2.2]; exact nofun))
    · rw [q2.seen, r2.seen, f5]
      intro y hy
      unfold setAt at hy
      split at hy
      · rename_i e
        subst e
        exact hrO y (by rw [h0.2.2]; exact nofun)
      · exact hr.2.1 y hy
  obtain ⟨G, s'', h, e, -⟩ := C99_checkout hG hx hobt
  exact ⟨hobt, G, s'', h, e⟩

/-- The comparison in which this is asked for ends with an error and reads nothing. -/
theorem C99_false_poison_compare (hG : RealGit W view) (hn : NobodyPushes W view) {s : Run W} {a x : Str} (ha : RefName a) (hx : RefName x) {ca cx : Snapshot}
    (ho : (view s.state).online = true) (h0 : (view s.state).origin.OnlyBranch a ca) (h1 : (view s.state).origin.OnlyBranch x cx) (hu : Unshadowed (view s.state) x)
    (hfree : (view s.state).origin.tags (atOrigin x) = none)
    (hr : RoomFor (view s.state).seen a ∧ RoomFor (view s.state).seen x ∧ RoomFor (view s.state).here.heads (atOrigin x)) (hrO : RoomFor (view s.state).origin.heads x)
    (b : Build) (order : HashOrder) (rx : RegexEngine) (env : Env) (repo : Path) (new : Str) (params : CompareParams) (filter : FilterParams) (pattern : Str) (maxFiles : Nat)
    (hd : ¬ DotDot pattern) (hp : params.shouldPull = true ∧ params.gitForce = true) :
    ∃ m G s', compareCommits b order rx env repo (a ++ ':' :: atOrigin x) new params filter pattern maxFiles s = (.err m, ⟨s', s.log ++ G⟩) ∧
      ∀ pull, ∃ G s'', CheckedOut W x pull true s' G s'' ∧ (view s'').head = ca := by
  obtain ⟨G, s', h, k⟩ := C99_false_poison hG hn ha hx ho h0 h1 hu hfree hr hrO
  obtain ⟨m, hm⟩ := C42_old_fails b order rx env repo (a ++ ':' :: atOrigin x) new params filter pattern maxFiles s hd G s' (by rw [hp.1, hp.2]; exact h)
  exact ⟨m, G, s', hm, fun pull => (k pull).2⟩

end Swc
