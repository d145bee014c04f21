/-
C99: what is compared, in terms of what git documents: the newest commits of branches, tags, and commits by their hashes.
-/
import Verif.Spec.Clone
import Verif.Props.GlobOnce
import Verif.Props.Crowd

namespace Swc

open Spec

variable {W : World} {view : W.State → Clone}

theorem drop_origin (x : Str) : (atOrigin x).drop 7 = x := rfl

theorem lastSeen_origin (k : Clone) (x : Str) : k.lastSeen (atOrigin x) = k.seen x := by
  unfold Clone.lastSeen
  rw [if_pos ⟨x, rfl⟩, drop_origin]

theorem origin_noHash (x : Str) : ¬ IsHash (atOrigin x) := fun h => by
  have := h.2 '/' (by simp [atOrigin])
  revert this
  decide

theorem origin_start (x : Str) : (atOrigin x).head? ≠ some '-' := by
  intro h
  cases h

theorem denotes_origin (hG : RealGit W view) {s : W.State} {x : Str} (h1 : (view s).here.tags (atOrigin x) = none) (h2 : (view s).here.heads (atOrigin x) = none) :
    (view s).Denotes (atOrigin x) = ((view s).seen x <|> (view s).other (atOrigin x)) := by
  have h0 : (view s).here.commits (atOrigin x) = none := by
    by_contra h
    exact origin_noHash x (hG.hashes s _ h)
  unfold Clone.Denotes
  rw [h0, h1, h2, lastSeen_origin]
  rfl

/-- The fetch that precedes. -/
theorem fetch_first (hG : RealGit W view) {s : W.State} {pull : Bool} {x : Str} (hx : RefName x)
    (hp : pull = true → (view s).online = true ∧ (view s).origin.knows x ∧ ∀ c, (view s).origin.OnlyBranch x c → RoomFor (view s).seen x) :
    ∃ L s', Fetched W x pull s L s' ∧ SameFiles (view s) (view s') ∧ (view s').here.tags = (view s).here.tags ∧
      (pull = true → (∀ c, (view s).origin.OnlyBranch x c → (view s').seen x = some c) ∧ ((¬ ∃ c, (view s).origin.OnlyBranch x c) → (view s').seen x = (view s).seen x) ∧
        ∀ c, (view s).origin.commits x = some c → (view s').here.commits x = some c) ∧
      (pull = false → view s' = view s) := by
  cases pull with
  | false => exact ⟨[], s, .inr ⟨rfl, rfl, rfl⟩, ⟨rfl, rfl, rfl, fun _ _ h => h⟩, rfl, nofun, fun _ => rfl⟩
  | true =>
    have h := hG.fetch s x hx
    have hs := h.works (hp rfl).1 (hp rfl).2.1 (hp rfl).2.2
    exact ⟨_, _, .inl ⟨rfl, _, rfl, hs, rfl⟩, h.same, h.tags, fun _ => ⟨h.branch hs, fun h' => h.noBranch (.inr h'), h.commit hs⟩, nofun⟩

/-- C99: what is checked out by the server.  In a world in which git does what it documents, the newest commit of a branch is checked out if the origin is asked, and
otherwise the commit last seen; tags and commits are those of these names. -/
theorem C99_checkout (hG : RealGit W view) {s : W.State} {pull : Bool} {x : Str} {c : Snapshot} (hx : RefName x)
    (h : Obtains (view s) pull x c) :
    ∃ G s', CheckedOut W x pull true s G s' ∧ (view s').head = c ∧ (view s').branch = (view s).branch ∧
      ∀ b, (view s').here.heads b = if (view s).branch = some b then some c else (view s).here.heads b := by
  have hknow : pull = true → (view s).online = true ∧ (view s).origin.knows x ∧ ∀ c, (view s).origin.OnlyBranch x c → RoomFor (view s).seen x := by
    intro hp
    cases h with
    | newest _ _ h1 h2 h3 => exact ⟨h1, .inr (.inr (by rw [h2.2.2]; exact nofun)), fun _ _ => h3⟩
    | last _ h1 => rw [hp] at h1; nomatch h1
    | tag _ _ _ _ _ h1 => exact ⟨(h1 hp).1, .inr (.inl (h1 hp).2), fun _ h => absurd h.2.1 (h1 hp).2⟩
    | hash _ _ h1 h2 => exact ⟨h1, .inl (by rw [h2]; exact nofun), fun _ h => by have := h.1; rw [h2] at this; nomatch this⟩
    | shadow _ _ _ h1 => exact h1 hp
  obtain ⟨L0, s0, hf, hsame, htags, hpull, hno⟩ := fetch_first hG hx hknow
  have hden' : Unshadowed (view s) x → (view s0).Denotes (atOrigin x) = ((view s0).seen x <|> (view s0).other (atOrigin x)) :=
    fun hu => denotes_origin hG (s := s0) (x := x) (by rw [htags]; exact hu.tag) (by rw [hsame.heads]; exact hu.head)
  have hheads : ∀ {s' : W.State} {c : Snapshot}, ResetTo (view s0) c (view s') → (view s').branch = (view s).branch ∧
      ∀ b, (view s').here.heads b = if (view s).branch = some b then some c else (view s).here.heads b := by
    intro s' c hr
    refine ⟨hr.branch.trans hsame.branch, fun b => ?_⟩
    rw [hr.heads, hsame.branch, hsame.heads]
    cases (view s).branch with
    | none => rfl
    | some b' =>
      show setAt _ b' c b = _
      unfold setAt
      by_cases e : b = b'
      · subst e; simp
      · rw [if_neg e, if_neg (fun h => e (Option.some.inj h).symm)]
  -- the branch of the origin as now seen
  have horigin : (view s0).Denotes (atOrigin x) = some c → ¬ HasPath (view s).head (atOrigin x) → ∃ G s', CheckedOut W x pull true s G s' ∧ (view s').head = c ∧ (view s').branch = (view s).branch ∧
      ∀ b, (view s').here.heads b = if (view s).branch = some b then some c else (view s).here.heads b := by
    intro hd hpath
    obtain ⟨h1, h2⟩ := (hG.reset s0 (atOrigin x) (origin_start x)).works c hd (by rw [hsame.head]; exact hpath)
    exact ⟨_, _, ⟨L0, s0, _, hf, rfl, .inr (.inl ⟨rfl, _, rfl, h1, rfl⟩)⟩, h2.head, hheads h2⟩
  have hbranch : Unshadowed (view s) x → (view s0).seen x = some c → ∃ G s', CheckedOut W x pull true s G s' ∧ (view s').head = c ∧ (view s').branch = (view s).branch ∧
      ∀ b, (view s').here.heads b = if (view s).branch = some b then some c else (view s).here.heads b := by
    intro hu hseen
    refine horigin ?_ hu.file
    rw [hden' hu, hseen]
    rfl
  -- the name itself
  have hname : Unshadowed (view s) x → NotSeen (view s) x → (view s0).seen x = none → (view s0).Denotes x = some c → ¬ HasPath (view s).head x →
      ∃ G s', CheckedOut W x pull true s G s' ∧ (view s').head = c ∧ (view s').branch = (view s).branch ∧
      ∀ b, (view s').here.heads b = if (view s).branch = some b then some c else (view s).here.heads b := by
    intro hu hns hseen hd hpath
    have hden := hden' hu
    have ho : (view s0).other (atOrigin x) = none := by
      by_contra h
      exact hG.notations s0 x h hns.plain
    rw [hseen, ho] at hden
    have hr := hG.reset s0 (atOrigin x) (origin_start x)
    obtain ⟨h1, h2⟩ := hr.unknown (.inl hden)
    generalize hw : W.git s0 [str% "reset", str% "--hard", atOrigin x] = r at h1 h2
    obtain ⟨out, s1⟩ := r
    have hd1 : (view s1).Denotes x = some c := by
      unfold Clone.Denotes Clone.lastSeen at hd ⊢
      rw [h2.here, h2.seen, h2.other]
      exact hd
    obtain ⟨h3, h4⟩ := (hG.reset s1 x hx.start.2.1).works c hd1 (by rw [h2.head, hsame.head]; exact hpath)
    refine ⟨_, _, ⟨L0, s0, _, hf, rfl, .inr (.inr ⟨rfl, s1, _, _, ⟨out, hw, h1, rfl⟩, ⟨_, rfl, h3, rfl⟩, rfl⟩)⟩, h4.head, ?_⟩
    refine hheads ⟨h4.head, h4.branch.trans h2.branch, ?_, h4.tags.trans (by rw [h2.here]), h4.commits.trans (by rw [h2.here]), h4.seen.trans h2.seen⟩
    rw [h4.heads, h2.branch, h2.here]
  cases h with
  | newest hu hp h1 h2 => exact hbranch hu ((hpull hp).1 c h2)
  | last hu hp h1 =>
    refine hbranch hu ?_
    rw [hno hp]; exact h1
  | shadow h1 h2 h3 h4 =>
    refine horigin ?_ h3
    have h0 : (view s0).here.commits (atOrigin x) = none := by
      by_contra h
      exact origin_noHash x (hG.hashes s0 _ h)
    unfold Clone.Denotes
    rw [h0, htags, h1, hsame.heads, h2]
    rfl
  | tag hu h1 h2 h3 h4 h5 =>
    refine hname hu h4 ?_ ?_ h3
    · cases pull with
      | false => rw [hno rfl]; exact h4.seen
      | true =>
        rw [(hpull rfl).2.1 ?_, h4.seen]
        rintro ⟨c', hc'⟩
        exact (h5 rfl).2 hc'.2.1
    · have h0 : (view s0).here.commits x = none := by
        by_contra h
        exact h2 (hG.hashes s0 x h)
      unfold Clone.Denotes
      rw [h0, htags, h1]
      rfl
  | hash hu hp h1 h2 h3 h4 =>
    refine hname hu h4 ?_ ?_ h3
    · rw [(hpull hp).2.1 ?_, h4.seen]
      rintro ⟨c', hc'⟩
      have := hc'.1
      rw [h2] at this
      nomatch this
    · unfold Clone.Denotes
      rw [(hpull hp).2.2 c h2]
      rfl

/-! ### The files -/

theorem plainNames_map (ns : List Str) : plainNames (ns.map Comp.normal) = some ns := by
  induction ns with
  | nil => rfl
  | cons s ns ih => rw [List.map_cons, plainNames, ih]; rfl

theorem functionsBy_map {fs fs' : Fs} {named named' : Path → Str → Prop} {lenient : Bool} {g : Path → Path} {files : List Path} {l : List Located}
    (h : FunctionsBy fs named lenient files l) (hfs : ∀ p ∈ files, fs' (g p) = fs p) (hn : ∀ p ∈ files, ∀ n, named p n → named' (g p) n) :
    FunctionsBy fs' named' lenient (files.map g) l := by
  induction h with
  | nil => exact .nil
  | file hc hg hne hok hname _ ih =>
    exact .file ((hfs _ List.mem_cons_self).trans hc) hg hne hok (hn _ List.mem_cons_self _ hname)
      (ih (fun p hp => hfs p (List.mem_cons_of_mem _ hp)) (fun p hp => hn p (List.mem_cons_of_mem _ hp)))
  | other hlen hc hi hno hname _ ih =>
    exact .other hlen ((hfs _ List.mem_cons_self).trans hc) hi hno (hn _ List.mem_cons_self _ hname)
      (ih (fun p hp => hfs p (List.mem_cons_of_mem _ hp)) (fun p hp => hn p (List.mem_cons_of_mem _ hp)))

theorem pathCmp_append (pre a c : Path) : Path.cmp (pre ++ a) (pre ++ c) = Path.cmp a c := by
  induction pre with
  | nil => rfl
  | cons x pre ih =>
    rw [List.cons_append, List.cons_append, Path.cmp, ih, (compCmp_eq x x).2 rfl]
    rfl

theorem describesPath_ne {cs ns : List Str} (h : DescribesPath cs ns) : cs ≠ [] → ns ≠ [] := by
  induction h with
  | done => exact fun h => absurd rfl h
  | name => exact fun _ => by simp
  | skip h0 _ ih => exact fun _ => ih h0
  | last => exact fun _ => by simp
  | deeper => exact fun _ => by simp

/-- C99: the files listed are those of the commit that is checked out which the patterns describe, under their names in the repository. -/
theorem C99_files {disk : W.State → GlobDisk} {base : Path} (hW : Workspace W view disk base) (hb : base = undotted base ∨ base = [.cur]) {pattern : Str} {ps : List Str}
    (hp : Pieces pattern ps) (hgood : GoodPieces ps) (s : W.State) {lenient : Bool} {maxFiles : Nat} {fns : List Located}
    (h : FunctionsAt (view s).head ps lenient maxFiles fns) :
    ∃ files, Listed W s base pattern maxFiles files ∧ FunctionsOf (W.fs s) base lenient files fns := by
  obtain ⟨files, h1, h2, h3, h4⟩ := h
  obtain ⟨spot, hspot, hold⟩ := hW.place s
  -- the files wanted are not those of git
  have hwant : ∀ f, Wanted [] (view s).head.tree ps f → ∃ sn ns n, sn ≠ gitDir ∧ LeadsTo (view s).head.tree (sn :: ns) n ∧ f = (sn :: ns).map .normal := by
    rintro f ⟨-, p, hpm, comps, hc, ns, n, a1, a2, -, rfl⟩
    obtain ⟨comps', hc', -, hgit⟩ := hgood.each p hpm
    cases ordinary_unique hc hc'
    have hne := hgit ns a2
    cases ns with
    | nil =>
      exact absurd rfl (describesPath_ne a2 hc.some_)
    | cons sn ns => exact ⟨sn, ns, n, fun h => hne (by rw [h]; rfl), a1, rfl⟩
  have hiff : ∀ f, Wanted [] (view s).head.tree ps f ↔ Wanted base spot.node ps (undotted base ++ f) := by
    intro f
    have hlast : ∀ sn ns, (undotted base ++ (sn :: ns).map Comp.normal).getLast? = ((sn :: ns).map Comp.normal).getLast? := by
      intro sn ns
      rw [List.getLast?_append_of_ne_nil _ (by simp)]
    constructor
    · intro hw
      obtain ⟨sn, ns, n, hne, hl, rfl⟩ := hwant f hw
      obtain ⟨hm, p, hpm, comps, hc, ns', n', a1, a2, a3, e⟩ := hw
      have e' : sn :: ns = ns' := List.map_injective_iff.2 (fun a b h => Comp.normal.inj h) e
      subst e'
      exact ⟨by rw [hlast]; exact hm, p, hpm, comps, hc, sn :: ns, n', (hold.files _ _ _ hne).2 a1, a2, a3, rfl⟩
    · rintro ⟨hm, p, hpm, comps, hc, ns, n, a1, a2, a3, e⟩
      have e := List.append_cancel_left e
      subst e
      obtain ⟨comps', hc', -, hgit⟩ := hgood.each p hpm
      cases ordinary_unique hc hc'
      have hne := hgit ns a2
      cases ns with
      | nil =>
        exact absurd rfl (describesPath_ne a2 hc.some_)
      | cons sn ns =>
        rw [hlast] at hm
        exact ⟨hm, p, hpm, comps, hc, sn :: ns, n, (hold.files _ _ _ (fun h => hne (by rw [h]; rfl))).1 a1, a2, a3, rfl⟩
  refine ⟨files.map (undotted base ++ ·), ?_, ?_⟩
  · refine (C98_limit hW.onDisk maxFiles hspot hold.tidy hp (fun p hpm => ?_) hgood.apart ?_ ?_).2 (by rw [List.length_map]; exact h3)
    · obtain ⟨comps, a, c, -⟩ := hgood.each p hpm
      exact ⟨comps, a, c⟩
    · rw [List.pairwise_map]
      exact h1.imp (fun {a c} h => by rw [pathCmp_append]; exact h)
    · intro f
      rw [List.mem_map]
      constructor
      · rintro ⟨g, hg, rfl⟩
        exact (hiff g).1 ((h2 g).1 hg)
      · intro hw
        have := hw
        obtain ⟨-, p, hpm, comps, hc, ns, n, -, -, -, rfl⟩ := this
        exact ⟨_, (h2 _).2 ((hiff _).2 hw), rfl⟩
  · refine functionsBy_map h4 ?_ ?_
    · intro p hp
      obtain ⟨sn, ns, n, hne, hl, rfl⟩ := hwant p ((h2 p).1 hp)
      rw [hW.texts s sn ns n hne hl]
      unfold Snapshot.fs
      rw [plainNames_map]
    · rintro p hp _ rfl
      obtain ⟨sn, ns, n, hne, hl, rfl⟩ := hwant p ((h2 p).1 hp)
      rw [display_names]
      exact C98_names hb (by simp)

/-! ### Comparisons -/

theorem checkedOut_steady {N : Str → Prop} {I : W.State → Prop} (hI : Steady W N I) {x : Str} (hN : N x) {pull : Bool} {s s' : W.State} {G : List Event}
    (h : CheckedOut W x pull true s G s') (hs : I s) : I s' := by
  obtain ⟨L0, s0, L1, hf, -, h⟩ := h
  have h0 : I s0 := by
    rcases hf with ⟨-, out, hw, -⟩ | ⟨-, -, rfl⟩
    · have := hI s _ hs (.inl ⟨x, x, hN, hN, x, .inl rfl, .inl ⟨trivial, rfl⟩⟩)
      rwa [hw] at this
    · exact hs
  rcases h with ⟨h, -⟩ | ⟨-, out, hw, -⟩ | ⟨-, s1, L2, L3, ⟨out, hw, -⟩, ⟨out', hw', -⟩, -⟩
  · nomatch h
  · have := hI s0 _ h0 (.inl ⟨x, x, hN, hN, x, .inl rfl, .inr (.inl rfl)⟩)
    rwa [hw] at this
  · have h1 := hI s0 _ h0 (.inl ⟨x, x, hN, hN, x, .inl rfl, .inr (.inl rfl)⟩)
    rw [hw] at h1
    have := hI s1 _ h1 (.inl ⟨x, x, hN, hN, x, .inl rfl, .inr (.inr rfl)⟩)
    rwa [hw'] at this

/-- C99: what the server compares.  In states `I`, which the server does not leave, the two revisions stand for two commits; then the functions compared are those
in the files of these commits that the patterns describe. -/
theorem C99_revisions (hG : RealGit W view) {disk : W.State → GlobDisk} {base : Path} (hW : Workspace W view disk base) (hb : base = undotted base ∨ base = [.cur])
    {a : CompareArgs} {ps : List Str} (hp : Pieces (trim a.pathPattern) ps) (hgood : GoodPieces ps) {N : Str → Prop} {I : W.State → Prop} (hI : Steady W N I)
    {s0 : W.State} (h0 : I s0) (n1 : RefName (trim a.old) ∧ N (trim a.old)) (n2 : RefName (trim a.new)) {c1 c2 : Snapshot}
    (h : ∀ s, I s → Obtains (view s) (a.gitPull ≠ some false) (trim a.old) c1 ∧ Obtains (view s) (a.gitPull ≠ some false) (trim a.new) c2)
    {olds news : List Located} (f1 : FunctionsAt c1 ps a.ignoreErrors 6000 olds) (f2 : FunctionsAt c2 ps a.ignoreErrors 6000 news) :
    Revisions W base a s0 olds news := by
  obtain ⟨G1, s1, g1, e1, -⟩ := C99_checkout hG n1.1 (h s0 h0).1
  have hI1 : I s1 := checkedOut_steady hI n1.2 g1 h0
  obtain ⟨G2, s2, g2, e2, -⟩ := C99_checkout hG n2 (h s1 hI1).2
  obtain ⟨files1, l1, k1⟩ := C99_files hW hb hp hgood s1 (by rw [e1]; exact f1)
  obtain ⟨files2, l2, k2⟩ := C99_files hW hb hp hgood s2 (by rw [e2]; exact f2)
  exact ⟨G1, s1, files1, G2, s2, files2, g1, l1, k1, g2, l2, k2⟩

/-! ### Quiet times -/

section
variable {O : Refs} {B T : Str → Snapshot → Prop}

theorem wellKept_untouched {k k' : Clone} (h : WellKept O B T k) (hu : AsBefore k k') (hn : k'.origin = k.origin ∧ k'.online = k.online) : WellKept O B T k' where
  origin := hn.1.trans h.origin
  online := hn.2.trans h.online
  clear x c hx := by
    obtain ⟨⟨h1, h2, h3⟩, h4⟩ := h.clear x c hx
    exact ⟨⟨by rw [hu.here]; exact h1, by rw [hu.here]; exact h2, by rw [hu.head]; exact h3⟩, by rw [hu.branch]; exact h4⟩
  room x c hx := by rw [hu.seen]; exact h.room x c hx
  tags x c hx := by rw [hu.here, hu.seen, hu.head]; exact h.tags x c hx

theorem wellKept_fetched {k k' : Clone} (hO : Undisputed O B T) (h : WellKept O B T k) (hs : SameFiles k k') (ht : ∀ t c, k.here.tags t = some c → k'.here.tags t = some c)
    (hnew : ∀ t c, k.here.tags t = none → k'.here.tags t = some c → O.tags t = some c) (hseen : ∀ y, k'.seen y = k.seen y ∨ k'.seen y = O.heads y)
    (hn : k'.origin = k.origin ∧ k'.online = k.online) : WellKept O B T k' where
  origin := hn.1.trans h.origin
  online := hn.2.trans h.online
  clear x c hx := by
    obtain ⟨⟨h1, h2, h3⟩, h4⟩ := h.clear x c hx
    refine ⟨⟨?_, by rw [hs.heads]; exact h2, by rw [hs.head]; exact h3⟩, by rw [hs.branch]; exact h4⟩
    by_contra hne
    obtain ⟨d, hd⟩ := Option.ne_none_iff_exists'.1 hne
    have := hnew _ d h1 hd
    rw [hO.free x c hx] at this
    nomatch this
  room x c hx := by
    intro y hy
    rcases hseen y with e | e
    · rw [e] at hy; exact h.room x c hx y hy
    · rw [e] at hy; exact (hO.branches x c hx).2 y hy
  tags x c hx := by
    obtain ⟨h1, h2, h3⟩ := h.tags x c hx
    refine ⟨ht _ _ h1, ?_, by rw [hs.head]; exact h3⟩
    rcases hseen x with e | e
    · rw [e]; exact h2
    · rw [e]; exact (hO.tags x c hx).2.1

theorem wellKept_reset {k k' : Clone} {c : Snapshot} (h : WellKept O B T k) (hr : ResetTo k c k')
    (hc : ∀ x d, (B x d ∨ T x d → ¬ HasPath c (atOrigin x)) ∧ (T x d → ¬ HasPath c x)) (hn : k'.origin = k.origin ∧ k'.online = k.online) : WellKept O B T k' where
  origin := hn.1.trans h.origin
  online := hn.2.trans h.online
  clear x d hx := by
    obtain ⟨⟨h1, h2, h3⟩, h4⟩ := h.clear x d hx
    refine ⟨⟨by rw [hr.tags]; exact h1, ?_, by rw [hr.head]; exact (hc x d).1 hx⟩, by rw [hr.branch]; exact h4⟩
    rw [hr.heads]
    generalize k.branch = b at h4
    cases b with
    | none => exact h2
    | some b =>
      show setAt _ _ _ _ = _
      unfold setAt
      rw [if_neg (fun e => h4 (by rw [e])), h2]
  room x d hx := by rw [hr.seen]; exact h.room x d hx
  tags x d hx := by
    rw [hr.tags, hr.seen, hr.head]
    exact ⟨(h.tags x d hx).1, (h.tags x d hx).2.1, (hc x d).2 hx⟩

/-- C99: quiet times.  If nobody pushes and only names of revisions are asked for, a clone that is in order remains so, and the branches and tags are what they are at
the origin. -/
theorem C99_quiet (hG : RealGit W view) (hn : NobodyPushes W view) (hO : Undisputed O B T) (hF : NoSuchFiles W view B T) :
    Steady W RefName (fun s => WellKept O B T (view s)) ∧
      ∀ s, WellKept O B T (view s) → ∀ x c, B x c ∨ T x c → Obtains (view s) true x c := by
  constructor
  · intro s args hs ha
    have reset : ∀ z, z.head? ≠ some '-' → WellKept O B T (view (W.git s [str% "reset", str% "--hard", z]).2) := by
      intro z hz
      have hr := hG.reset s z hz
      by_cases hp : HasPath (view s).head z
      · exact wellKept_untouched hs (hr.unknown (.inr hp)).2 (hn _ _)
      · cases hd : (view s).Denotes z with
        | none => exact wellKept_untouched hs (hr.unknown (.inl hd)).2 (hn _ _)
        | some c => exact wellKept_reset hs (hr.works c hd hp).2 (hF s z c hd) (hn _ _)
    rcases ha with ⟨old, new, n1, n2, rev, hrev, h⟩ | ⟨-, rfl⟩ | rfl
    · have hN : RefName rev := by rcases hrev with rfl | rfl <;> assumption
      rcases h with ⟨-, rfl⟩ | rfl | rfl
      · have hf := hG.fetch s rev hN
        refine wellKept_fetched hO hs hf.same (fun t c h => by rw [hf.tags]; exact h) (fun t c h h' => ?_) (fun y => ?_) (hn _ _)
        · rw [hf.tags, h] at h'; nomatch h'
        · by_cases e : y = rev
          · subst e
            by_cases hb : ∃ c, (view s).origin.OnlyBranch y c
            · obtain ⟨c, hc⟩ := hb
              by_cases ho : Success (W.git s [str% "fetch", str% "origin", y]).1
              · right
                rw [hf.branch ho c hc, ← hs.origin, hc.2.2]
              · exact .inl (hf.noBranch (.inl ho))
            · exact .inl (hf.noBranch (.inr hb))
          · exact .inl (hf.others y e)
      · exact reset _ (origin_start rev)
      · exact reset _ hN.start.2.1
    · have hf := hG.fetchAll s
      exact wellKept_fetched hO hs hf.same hf.oldTags (fun t c h h' => by rw [← hs.origin]; exact hf.newTags t c h h') (fun y => by rw [← hs.origin]; exact hf.someSeen y) (hn _ _)
    · exact wellKept_untouched hs (hG.list s).untouched (hn _ _)
  · rintro s hs x c (hx | hx)
    · exact .newest (hs.clear x c (.inl hx)).1 rfl hs.online (by rw [hs.origin]; exact (hO.branches x c hx).1) (hs.room x c hx)
    · obtain ⟨h1, h2, h3⟩ := hs.tags x c hx
      obtain ⟨o1, o2, o3, o4⟩ := hO.tags x c hx
      exact .tag (hs.clear x c (.inr hx)).1 h1 o3 h3 ⟨o4, h2⟩ (fun _ => ⟨hs.online, by rw [hs.origin]; rw [o1]; exact nofun⟩)

/-- C99: what can be compared.  The repository is in order; then the server can compare any two of its branches and tags, and what it compares are the functions
in the files of their commits. -/
theorem C99_comparable (hG : RealGit W view) (hn : NobodyPushes W view) (hO : Undisputed O B T) (hF : NoSuchFiles W view B T)
    {disk : W.State → GlobDisk} {s : Site} {m : Machine} {cmd : ServerCmd} {c0 : Config W.State} {a : CompareArgs} {org : Str} {olds news : List Located}
    (hW : Workspace W view disk (cmd.root.join a.repo)) (hb : cmd.root.join a.repo = undotted (cmd.root.join a.repo) ∨ cmd.root.join a.repo = [.cur])
    (h0 : WellKept O B T (view (c0.sh.repo a.repo))) {ps : List Str} (hp : Pieces (trim a.pathPattern) ps) (hgood : GoodPieces ps)
    (n1 : RefName (trim a.old)) (n2 : RefName (trim a.new)) (hpull : a.gitPull ≠ some false)
    {c1 c2 : Snapshot} (h1 : B (trim a.old) c1 ∨ T (trim a.old) c1) (h2 : B (trim a.new) c2 ∨ T (trim a.new) c2)
    (f1 : FunctionsAt c1 ps a.ignoreErrors 6000 olds) (f2 : FunctionsAt c2 ps a.ignoreErrors 6000 news)
    (repo : a.repo ∈ cmd.repos) (origin : getOriginOrg (m.origin (cmd.root.join a.repo)) = .ok org) (notRecent : NotRecent c0 a) (notUnderWay : NotUnderWay c0 a)
    (filters : ∀ q, a.pallet = some q ∨ a.extrinsic = some q → s.srv.rx.compile q ≠ none) (sized : AllSized a.method a.unit olds news)
    (files : ∀ x, x ∈ olds ∨ x ∈ news → Inert x.file) (names : BareNames cmd.repos ∧ Inert org ∧ Inert a.repo ∧ Inert a.old ∧ Inert a.new)
    (pattern : ¬ DotDot (trim a.pathPattern)) :
    Comparable W s m cmd c0 RefName a org olds news where
  repo := repo
  origin := origin
  notRecent := notRecent
  notUnderWay := notUnderWay
  pattern := pattern
  states := by
    obtain ⟨q1, q2⟩ := C99_quiet hG hn hO hF
    refine ⟨_, q1, h0, fun s hs => C99_revisions hG hW hb hp hgood q1 hs ⟨n1, n1⟩ n2 (fun s hs => ?_) f1 f2⟩
    rw [decide_eq_true hpull]
    exact ⟨q2 s hs _ _ h1, q2 s hs _ _ h2⟩
  filters := filters
  sized := sized
  files := files
  names := names

/-! ### polkadot-sdk -/

theorem weightFile_head {ns : List Str} (h : WeightFile ns) : ns.head? ≠ some gitDir := by
  cases h <;> (intro h; have h := Option.some.inj h; revert h; decide)

theorem sdk_good {pattern : Str} (hp : pathPresets.lookup (str% "polkadot-sdk") = some pattern) : GoodPieces (splitChar ',' pattern) := by
  have hsplit : splitChar ',' pattern = sdkPieces.map (·.1) := by
    rw [← sdk_split, hp]; rfl
  rw [hsplit]
  refine ⟨fun p h => ?_, sdk_apart⟩
  obtain ⟨x, hx, rfl⟩ := List.mem_map.1 h
  exact ⟨x.2, sdk_ordinary x hx, sdk_once x hx, fun ns hns => weightFile_head ((sdk_paths ns).1 ⟨x, hx, hns⟩)⟩

theorem sdk_functions {pattern : Str} (hp : pathPresets.lookup (str% "polkadot-sdk") = some pattern) {c : Snapshot} {fns : List Located} (h : SdkFunctionsAt c fns) :
    FunctionsAt c (splitChar ',' pattern) true 6000 fns := by
  obtain ⟨files, h1, h2, h3, h4⟩ := h
  exact ⟨files, h1, fun f => (h2 f).trans (sdk_wanted hp [] c.tree f).symm, h3, h4⟩

theorem sdk_trim : ∀ pattern, pathPresets.lookup (str% "polkadot-sdk") = some pattern → trim pattern = pattern ∧ ¬ DotDot pattern := by
  intro pattern hp
  have h : ((pathPresets.lookup (str% "polkadot-sdk")).all fun p => trim p == p && !hasDotDot p) = true := by decide +kernel
  rw [hp] at h
  simp only [Option.all_some, Bool.and_eq_true, beq_iff_eq, Bool.not_eq_true'] at h
  exact ⟨h.1, by rw [← hasDotDot_iff, h.2]; exact nofun⟩

/-- C99: the button of the start page.  The server works on a clone of polkadot-sdk that is in order; two of its branches or tags are chosen, and the button is
pressed.  Then the page that comes shows the report on the functions in the weight files of their newest commits, in whatever company that asks for revisions. -/
theorem C99_button (hG : RealGit W view) (hn : NobodyPushes W view) (hO : Undisputed O B T) (hF : NoSuchFiles W view B T)
    {disk : W.State → GlobDisk} {s : Site} {m : Machine} {args : List Str} {cmd : ServerCmd} (hS : s.Started m args cmd) (hb : s.srv.build = .release)
    (hsyn : s.srv.env.syn = rustSyn) (hp : Peaceful W s.srv.env.syn) {st0 : SiteState W.State} (hR : s.Reachable W st0)
    {base : Path} (hbase : base = cmd.root.join (str% "polkadot-sdk")) (hW : Workspace W view disk base) (hdot : base = undotted base ∨ base = [.cur])
    (h0 : WellKept O B T (view (st0.conf.sh.repo (str% "polkadot-sdk"))))
    {store : Str → Option Str} {tr : List PageEvent} {p : StartPage} (hv : Visit s.names store tr p) {old new pattern : Str}
    (hpr : p.repo = some (str% "polkadot-sdk")) (hpo : p.first = some old) (hpn : p.second = some new)
    (hpp : pathPresets.lookup (str% "polkadot-sdk") = some pattern) (u1 : UrlSafe old) (u2 : UrlSafe new) (p1 : '+' ∉ old) (p2 : '+' ∉ new)
    (t1 : trim old = old) (t2 : trim new = new) (n1 : RefName old) (n2 : RefName new) {a : CompareArgs}
    (ha : a = { old := old, new := new, repo := str% "polkadot-sdk", pathPattern := pattern, extrinsic := none, pallet := none, ignoreErrors := true, threshold := 10,
                unit := .time, gitPull := none, method := .asymptotic })
    {c1 c2 : Snapshot} (h1 : B old c1 ∨ T old c1) (h2 : B new c2 ∨ T new c2) {olds news : List Located} (f1 : SdkFunctionsAt c1 olds) (f2 : SdkFunctionsAt c2 news)
    {org : Str} (repo : str% "polkadot-sdk" ∈ cmd.repos) (origin : getOriginOrg (m.origin base) = .ok org) (notRecent : NotRecent st0.conf a)
    (notUnderWay : NotUnderWay st0.conf a) (sized : AllSized .asymptotic .time olds news) (files : ∀ x, x ∈ olds ∨ x ∈ news → Inert x.file)
    (names : BareNames cmd.repos ∧ Inert org ∧ Inert old ∧ Inert new) :
    p.shownRepo = str% "polkadot-sdk" ∧ p.shownFirst = old ∧ p.shownSecond = new ∧ ∃ q, p.compare = some q ∧
      Served W s st0 RefName ⟨str% "GET", utf8 (str% "/compare"), q⟩ a org olds news := by
  subst hbase
  refine C93_button hS hb hsyn hp hR hv hpr hpo hpn hpp u1 u2 p1 p2 ha (C99_comparable (a := a) hG hn hO hF (disk := disk) ?_ ?_ ?_ (ps := splitChar ',' pattern) ?_ (sdk_good hpp)
    (c1 := c1) (c2 := c2) ?_ ?_ ?_ ?_ ?_ ?_ ?_ ?_ ?_ notRecent notUnderWay ?_ ?_ files ?_ ?_)
  all_goals subst ha
  · exact hW
  · exact hdot
  · exact h0
  · rw [(sdk_trim pattern hpp).1]; exact splitChar_pieces pattern
  · rw [t1]; exact n1
  · rw [t2]; exact n2
  · exact nofun
  · rw [t1]; exact h1
  · rw [t2]; exact h2
  · exact sdk_functions hpp f1
  · exact sdk_functions hpp f2
  · exact repo
  · exact origin
  · rintro q (h | h) <;> cases h
  · exact sized
  · exact ⟨names.1, names.2.1, (show Inert (str% "polkadot-sdk") by unfold Inert; decide), names.2.2.1, names.2.2.2⟩
  · rw [(sdk_trim pattern hpp).1]; exact (sdk_trim pattern hpp).2

end

end Swc
