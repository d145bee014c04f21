/-
C98, continued: with patterns that have `**` at most once no file is found twice, so that the limit on the number of files is a limit on the number of files.
-/
import Verif.Props.Glob

namespace Swc

open Spec

theorem hasEntry_name {es : GlobEntries} {s : Str} {n : GlobNode} (h : HasEntry es s n) : s ∈ entryNames es := by
  induction h with
  | first => exact List.mem_cons_self
  | later _ ih => exact List.mem_cons_of_mem _ ih

theorem tidy_entry {es : GlobEntries} {s : Str} {n m : GlobNode} (h : (entryNames es).Nodup) (h1 : HasEntry es s n) (h2 : HasEntry es s m) : n = m := by
  induction h1 with
  | first =>
    cases h2 with
    | first => rfl
    | later h2 => exact absurd (hasEntry_name h2) (List.nodup_cons.1 h).1
  | later h1 ih =>
    cases h2 with
    | first => exact absurd (hasEntry_name h1) (List.nodup_cons.1 h).1
    | later h2 => exact ih (List.nodup_cons.1 h).2 h2

theorem tidy_distinct {n : GlobNode} (h : Tidy n) : DistinctNames n := fun ns es _ _ _ hl h1 h2 => tidy_entry (h ns es hl) h1 h2

theorem tidy_below {n m : GlobNode} {ns : List Str} (h : Tidy n) (hm : LeadsTo n ns m) : Tidy m :=
  fun ns' es hl => h (ns ++ ns') es (leadsTo_append.2 ⟨m, hm, hl⟩)

theorem here_paths (es : GlobEntries) (up : List GlobNode) (path : Path) : (es.here up path).map (·.2.2) = (entryNames es).map fun s => bare path ++ [.normal s] := by
  induction es using GlobEntries.rec (motive_1 := fun _ => True) with
  | file => trivial
  | dir => trivial
  | nil => rfl
  | cons t m es _ ih => rw [GlobEntries.here, entryNames, List.map_cons, List.map_cons, ih, globJoin_bare]

theorem under_shape {n : GlobNode} : ∀ {up : List GlobNode} {path : Path} {e : Str × GlobSpot × Path}, e ∈ n.under up path →
    ∃ s ns, e.2.2 = bare path ++ (s :: ns).map .normal := by
  intro up path ⟨name, ⟨m, up'⟩, p⟩ h
  obtain ⟨ns, -, h⟩ := mem_under.1 ⟨up', h⟩
  cases ns with
  | nil => exact ⟨name, [], h⟩
  | cons s ns => exact ⟨s, ns ++ [name], h⟩

theorem entries_shape {es : GlobEntries} {up : List GlobNode} {path : Path} {e : Str × GlobSpot × Path} (h : e ∈ es.under up path) :
    ∃ s ns, s ∈ entryNames es ∧ e.2.2 = bare path ++ (s :: ns).map .normal := by
  induction es using GlobEntries.rec (motive_1 := fun _ => True) with
  | file => trivial
  | dir => trivial
  | nil => nomatch h
  | cons t m es _ ih =>
    rw [GlobEntries.under, List.cons_append, List.mem_cons, List.mem_append] at h
    rcases h with rfl | h | h
    · exact ⟨t, [], List.mem_cons_self, globJoin_bare _ _⟩
    · obtain ⟨s, ns, h⟩ := under_shape h
      refine ⟨t, s :: ns, List.mem_cons_self, ?_⟩
      rw [h, bare_join]
      simp
    · obtain ⟨s, ns, h1, h2⟩ := ih h
      exact ⟨s, ns, List.mem_cons_of_mem _ h1, h2⟩

theorem under_nodup {n : GlobNode} : ∀ (up : List GlobNode) (path : Path), Tidy n → ((n.under up path).map (·.2.2)).Nodup := by
  induction n using GlobNode.rec (motive_2 := fun es => ∀ (up : List GlobNode) (path : Path), (entryNames es).Nodup → (∀ s c, HasEntry es s c → Tidy c) →
    ((es.under up path).map (·.2.2)).Nodup) with
  | file => exact fun _ _ _ => List.nodup_nil
  | dir es ih =>
    intro up path h
    rw [GlobNode.under]
    exact ih _ _ (h [] es .here) (fun s c hc => tidy_below h (ns := [s]) (.down hc .here))
  | nil => exact List.nodup_nil
  | cons t k es ih1 ih2 =>
    rename_i up path hn ht
    rw [entryNames, List.nodup_cons] at hn
    rw [GlobEntries.under, List.cons_append, List.map_cons, List.map_append, List.nodup_cons, List.nodup_append]
    refine ⟨?_, ih1 _ _ (ht t k .first), ih2 up path hn.2 (fun s c hc => ht s c (.later hc)), ?_⟩
    · rw [List.mem_append, globJoin_bare]
      rintro (h | h)
      · obtain ⟨e, he, h⟩ := List.mem_map.1 h
        obtain ⟨s, ns, h'⟩ := under_shape he
        rw [h', ← globJoin_bare, bare_join] at h
        simp [globJoin_bare] at h
      · obtain ⟨e, he, h⟩ := List.mem_map.1 h
        obtain ⟨s, ns, h1, h'⟩ := entries_shape he
        rw [h'] at h
        simp at h
        exact hn.1 (h.1 ▸ h1)
    · intro a ha b hb hab
      subst hab
      obtain ⟨e, he, rfl⟩ := List.mem_map.1 ha
      obtain ⟨e', he', h⟩ := List.mem_map.1 hb
      obtain ⟨s, ns, h1⟩ := under_shape he
      obtain ⟨s', ns', h2, h3⟩ := entries_shape he'
      rw [h3, h1, bare_join] at h
      simp at h
      exact hn.1 (h.1 ▸ h2)

theorem describesPath_length {comps ns : List Str} (h : DescribesPath comps ns) (hn : anyDirs ∉ comps) : ns.length = comps.length := by
  induction h with
  | done => rfl
  | name _ _ _ ih => rw [List.length_cons, List.length_cons, ih (fun h => hn (List.mem_cons_of_mem _ h))]
  | skip => exact absurd List.mem_cons_self hn
  | last => exact absurd List.mem_cons_self hn
  | deeper => exact absurd List.mem_cons_self hn

/-- What is found from a place tells the place. -/
theorem selects_from {q f : Path} {n : GlobNode} {comps : List Str} (h : Selects q n comps f) (hn : anyDirs ∉ comps) : q = f.take (f.length - comps.length) := by
  obtain ⟨ns, m, -, h, -, rfl⟩ := h
  have := describesPath_length h hn
  simp [this]

theorem walk_nodup {comps : List Str} : ∀ {ps : List (List GlobTok)} {deep : Bool} {spot : GlobSpot} {path : Path},
    List.Forall₂ (fun p ts => parseGlob none p = some ts) comps ps → (∀ p ∈ comps, '/' ∉ p ∧ p ≠ [] ∧ p.head? ≠ some '.') → Tidy spot.node →
    comps.count anyDirs + (if deep then 1 else 0) ≤ 1 → (globWalk false deep ps spot path).Nodup := by
  induction comps with
  | nil =>
    intro ps deep spot path hf _ ht _
    cases hf
    cases deep with
    | false => exact List.nodup_nil
    | true =>
      rw [globWalk]
      exact List.Nodup.sublist (List.Sublist.map _ List.filter_sublist) (under_nodup _ _ ht)
  | cons p comps ih =>
    intro ps deep spot path hf hc ht hcount
    cases hf with
    | @cons _ ts _ ps hp hf =>
    obtain ⟨hp1, hp2, hp3⟩ := hc p List.mem_cons_self
    have hc' := fun q hq => hc q (List.mem_cons_of_mem _ hq)
    have hempty : ps = [] ↔ comps = [] := by
      cases hf <;> simp
    by_cases ha : p = anyDirs
    · have hts := (parse_any hp hp1).2 ha
      subst hts
      subst ha
      cases deep with
      | true => rw [List.count_cons_self] at hcount; simp at hcount
      | false =>
        have e : globWalk false false ([.anyRec] :: ps) spot path = globWalk false true ps spot path := by simp [globWalk]
        rw [e]
        rw [List.count_cons_self] at hcount
        exact ih hf hc' ht (by simpa using hcount)
    · have hts := fun h => ha ((parse_any hp hp1).1 h)
      rw [List.count_cons_of_ne ha] at hcount
      have hcount' : comps.count anyDirs + (if false = true then 1 else 0) ≤ 1 := by
        simp only [Bool.false_eq_true, if_false]; omega
      -- what is found in an entry
      have hadd : ∀ (c : GlobSpot) (q : Path) , Tidy c.node → bare q = q →
          (if ps = [] then (if (false && !c.node.isDir) then [] else [q]) else globWalk false false ps c q).Nodup := by
        intro c q hdc hq
        split
        · simp
        · exact ih hf hc' hdc hcount'
      have hfrom : ∀ (c : GlobSpot) (q f : Path) , Tidy c.node → bare q = q → f ∈ (if ps = [] then (if (false && !c.node.isDir) then [] else [q]) else globWalk false false ps c q) →
          anyDirs ∉ comps → q = f.take (f.length - comps.length) := by
        intro c q f hdc hq h hno
        split at h
        · next h0 => simp at h; subst h; rw [hempty.1 h0]; simp
        · next h0 =>
          have := (walk_mem hf hc' (tidy_distinct hdc) (.inr (fun h => h0 (hempty.2 h)))).1 h
          rw [hq] at this
          exact selects_from this hno
      have hbj : ∀ s, bare (globJoin path s) = globJoin path s := fun s => by rw [bare_join, globJoin_bare]
      cases deep with
      | true =>
        have hno : anyDirs ∉ comps := by
          simp only [if_true] at hcount
          exact List.count_eq_zero.1 (by omega)
        have e : globWalk false true (ts :: ps) spot path = ((spot.node.under spot.up path).filter fun e => globMatches ts e.1).flatMap fun e =>
            if ps = [] then (if (false && !e.2.1.node.isDir) then [] else [e.2.2]) else globWalk false false ps e.2.1 e.2.2 := by
          simp only [globWalk, if_neg hts, if_true]
        rw [e, List.nodup_flatMap]
        have hin : ∀ x ∈ spot.node.under spot.up path, Tidy x.2.1.node ∧ bare x.2.2 = x.2.2 := by
          rintro ⟨name, ⟨m, up⟩, q⟩ h
          obtain ⟨ns, h4, rfl⟩ := mem_under.1 ⟨up, h⟩
          exact ⟨tidy_below ht h4, bare_end _ _ _⟩
        constructor
        · intro x hx
          obtain ⟨h1, h2⟩ := hin x (List.mem_of_mem_filter hx)
          exact hadd _ _ h1 h2
        · have hpw : (spot.node.under spot.up path).Pairwise (fun a c => a.2.2 ≠ c.2.2) := List.pairwise_map.1 (under_nodup _ _ ht)
          refine (hpw.filter _).imp_of_mem ?_
          intro a c ha hc hne f h1 h2
          obtain ⟨a1, a2⟩ := hin a (List.mem_of_mem_filter ha)
          obtain ⟨c1, c2⟩ := hin c (List.mem_of_mem_filter hc)
          exact hne ((hfrom _ _ _ a1 a2 h1 hno).trans (hfrom _ _ _ c1 c2 h2 hno).symm)
      | false =>
        cases hlit : globLiteral ts with
        | some s =>
          cases literal_eq hp hp1 hlit
          have e : globWalk false false (ts :: ps) spot path = match spot.child p with
              | some c => if ps = [] then (if (false && !c.node.isDir) then [] else [globJoin path p]) else globWalk false false ps c (globJoin path p)
              | none => [] := by
            simp only [globWalk, if_neg hts, hlit]
            rw [if_neg (by simp), if_neg (by rintro rfl; simp at hp3), if_neg (by rintro rfl; simp at hp3), if_neg hp2]
            cases spot.child p <;> rfl
          rw [e]
          unfold GlobSpot.child
          cases hn : spot.node with
          | file => exact List.nodup_nil
          | dir es =>
            simp only
            cases he : es.find p with
            | none => exact List.nodup_nil
            | some c =>
              exact hadd ⟨c, _⟩ _ (tidy_below ht (by rw [hn]; exact .down (find_some he) .here)) (hbj p)
        | none =>
          have hdot : ts.head? ≠ some (.char '.') := by
            intro h
            cases p with
            | nil => exact hp2 rfl
            | cons x p =>
              rcases parse_head hp (fun h => hp1 (List.mem_cons_of_mem _ h)) with ⟨ts', rfl, -⟩ | ⟨t, ts', rfl, ht⟩
              · cases h; exact hp3 rfl
              · cases h; exact ht _ rfl
          have e : globWalk false false (ts :: ps) spot path = match spot.node with
              | .file => []
              | .dir es => ((es.here (spot.node :: spot.up) path).filter fun e => globMatches ts e.1).flatMap fun e =>
                  if ps = [] then (if (false && !e.2.1.node.isDir) then [] else [e.2.2]) else globWalk false false ps e.2.1 e.2.2 := by
            simp only [globWalk, if_neg hts, hlit]
            rw [if_neg (by simp)]
            simp only [hdot, false_and, if_false, List.nil_append]
            cases spot.node <;> rfl
          rw [e]
          cases hn : spot.node with
          | file => exact List.nodup_nil
          | dir es =>
            simp only
            rw [List.nodup_flatMap]
            have hin : ∀ x ∈ es.here (.dir es :: spot.up) path, Tidy x.2.1.node ∧ bare x.2.2 = x.2.2 := by
              rintro ⟨name, ⟨m, up⟩, q⟩ h
              obtain ⟨h4, -, rfl⟩ := mem_here.1 h
              exact ⟨tidy_below ht (by rw [hn]; exact .down h4 .here), hbj name⟩
            constructor
            · intro x hx
              obtain ⟨h1, h2⟩ := hin x (List.mem_of_mem_filter hx)
              exact hadd _ _ h1 h2
            · have hnames := ht [] es (by rw [hn]; exact .here)
              have hpw : (es.here (.dir es :: spot.up) path).Pairwise (fun a c => a.2.2 ≠ c.2.2) := by
                have : ((es.here (.dir es :: spot.up) path).map (·.2.2)).Nodup := by
                  rw [here_paths]
                  exact hnames.map (fun a c h => by simpa using h)
                exact List.pairwise_map.1 this
              refine (hpw.filter _).imp_of_mem ?_
              rintro ⟨an, ⟨am, au⟩, ap⟩ ⟨cn, ⟨cm, cu⟩, cp⟩ ha hc hne f h1 h2
              obtain ⟨a1, a2⟩ := hin _ (List.mem_of_mem_filter ha)
              obtain ⟨c1, c2⟩ := hin _ (List.mem_of_mem_filter hc)
              -- both begin with the names of different entries
              obtain ⟨-, -, rfl⟩ := mem_here.1 (List.mem_of_mem_filter ha)
              obtain ⟨-, -, rfl⟩ := mem_here.1 (List.mem_of_mem_filter hc)
              have hpre : ∀ (c : GlobSpot) (q : Path) , Tidy c.node → bare q = q →
                  f ∈ (if ps = [] then (if (false && !c.node.isDir) then [] else [q]) else globWalk false false ps c q) → ∃ r, f = q ++ r := by
                intro c q hdc hq h
                split at h
                · simp at h; exact ⟨[], by simp [h]⟩
                · next h0 =>
                  obtain ⟨ns, _, -, -, -, h⟩ := (walk_mem hf hc' (tidy_distinct hdc) (.inr (fun h => h0 (hempty.2 h)))).1 h
                  exact ⟨_, by rw [h, hq]⟩
              obtain ⟨r1, e1⟩ := hpre _ _ a1 a2 h1
              obtain ⟨r2, e2⟩ := hpre _ _ c1 c2 h2
              rw [e1] at e2
              simp only [globJoin_bare, List.append_assoc, List.append_cancel_left_eq, List.singleton_append, List.cons.injEq, Comp.normal.injEq] at e2
              exact hne (by rw [e2.1])

/-- C98: a pattern with at most one `**` finds no file twice. -/
theorem C98_once {d : GlobDisk} {base : Path} {repo : GlobSpot} (hr : RepoAt d base repo) (hd : Tidy repo.node) {piece : Str} {comps : List Str}
    (ho : Ordinary piece comps) (h1 : comps.count anyDirs ≤ 1) :
    ∃ l, globOn d (base.display ++ str% "/" ++ piece) = some l ∧ l.Nodup ∧ ∀ f, f ∈ l ↔ Selects (undotted base) repo.node comps f := by
  obtain ⟨rfl, h0, hn, hg⟩ := ho
  obtain ⟨ps, hps⟩ := forall_parse hg (fun p hp => (hn p hp).1)
  obtain ⟨path, e1, -, e2⟩ := repo_walk hr h0 (fun p hp => ⟨(hn p hp).1, (hn p hp).2.1⟩) hg hps
  refine ⟨_, e2, walk_nodup hps hn hd (by simpa using h1), fun f => ?_⟩
  have := walk_mem (path := path) (f := f) (deep := false) hps hn (tidy_distinct hd) (.inr h0)
  rwa [e1, if_neg Bool.false_ne_true] at this

variable {W : World}

theorem ordinary_unique {piece : Str} {comps comps' : List Str} (h : Ordinary piece comps) (h' : Ordinary piece comps') : comps = comps' := by
  rw [← splitChar_join h.some_ (fun p hp => (h.names p hp).1), h.split, ← h'.split, splitChar_join h'.some_ (fun p hp => (h'.names p hp).1)]

theorem found_unique {s : W.State} {base : Path} {ps : List Str} {ms ms' : List (List Path)} (h : Found W s base ps ms) (h' : Found W s base ps ms') : ms = ms' := by
  unfold Found at *
  induction h generalizing ms' with
  | nil => cases h'; rfl
  | cons h _ ih =>
    cases h' with
    | cons h' hr =>
      obtain ⟨a, h1, rfl⟩ := h
      obtain ⟨a', h2, rfl⟩ := h'
      unfold GlobMatches at h1 h2
      rw [h1] at h2
      have : a = a' := List.map_injective_iff.2 (fun a b h => Except.ok.inj h) (Except.ok.inj h2)
      rw [this, ih hr]

/-- What the pieces find, all together, without repetition. -/
theorem found_nodup {disk : W.State → GlobDisk} (hW : OnDisk W disk) {base : Path} {s : W.State} {repo : GlobSpot} (hr : RepoAt (disk s) base repo) (hd : Tidy repo.node)
    {ps : List Str} (ho : ∀ p ∈ ps, ∃ comps, Ordinary p comps ∧ comps.count anyDirs ≤ 1) (hno : NoOverlap ps) :
    ∃ ms, Found W s base ps ms ∧ ms.flatten.Nodup ∧ ∀ f, f ∈ ms.flatten ↔ Wanted base repo.node ps f := by
  induction ps with
  | nil => exact ⟨[], .nil, List.nodup_nil, fun f => ⟨(fun h => nomatch h), fun ⟨_, _, h, _⟩ => nomatch h⟩⟩
  | cons p ps ih =>
    obtain ⟨comps, hc, h1⟩ := ho p List.mem_cons_self
    obtain ⟨l, e1, e2, e3⟩ := C98_once hr hd hc h1
    unfold NoOverlap at hno
    rw [List.pairwise_cons] at hno
    obtain ⟨ms, f1, f2, f3⟩ := ih (fun q hq => ho q (List.mem_cons_of_mem _ hq)) hno.2
    refine ⟨_, .cons ⟨l, (hW s _).1 l e1, rfl⟩ f1, ?_, ?_⟩
    · rw [List.flatten_cons, List.nodup_append]
      refine ⟨e2.filter _, f2, ?_⟩
      rintro f hf _ hf' rfl
      obtain ⟨ns, n, -, a1, -, rfl⟩ := (e3 f).1 (List.mem_of_mem_filter hf)
      obtain ⟨-, q, hq, comps', hc', ns', n', -, a2, -, e⟩ := (f3 _).1 hf'
      have : ns = ns' := List.map_injective_iff.2 (fun a b h => Comp.normal.inj h) (List.append_cancel_left e)
      subst this
      exact hno.1 q hq comps comps' ns hc hc' a1 a2
    · intro f
      rw [List.flatten_cons, List.mem_append, f3, List.mem_filter, e3]
      unfold Wanted
      simp only [decide_eq_true_eq, List.mem_cons, exists_eq_or_imp]
      constructor
      · rintro (⟨h, hn⟩ | ⟨hn, h⟩)
        · exact ⟨hn, .inl ⟨comps, hc, h⟩⟩
        · exact ⟨hn, .inr h⟩
      · rintro ⟨hn, ⟨comps', hc', h⟩ | h⟩
        · cases ordinary_unique hc hc'
          exact .inl ⟨h, hn⟩
        · exact .inr ⟨hn, h⟩

/-- C98: with ordinary patterns that have `**` at most once and do not describe a file together, the files are listed if, and only if, they are not too many; none
is counted twice. -/
theorem C98_limit {disk : W.State → GlobDisk} (hW : OnDisk W disk) {base : Path} {pattern : Str} (maxFiles : Nat) {s : W.State} {repo : GlobSpot}
    (hr : RepoAt (disk s) base repo) (hd : Tidy repo.node) {ps : List Str} (hp : Pieces pattern ps) (ho : ∀ p ∈ ps, ∃ comps, Ordinary p comps ∧ comps.count anyDirs ≤ 1)
    (hno : NoOverlap ps) {files : List Path} (hs : files.Pairwise (fun a c => Path.cmp a c = .lt)) (hf : ∀ f, f ∈ files ↔ Wanted base repo.node ps f) :
    Listed W s base pattern maxFiles files ↔ files.length ≤ maxFiles := by
  obtain ⟨ms, f1, f2, f3⟩ := found_nodup hW hr hd ho hno
  have hlen : ms.flatten.length = files.length :=
    ((List.perm_ext_iff_of_nodup f2 (sorted_nodup (cmp := Path.cmp) hs)).2 (fun f => (f3 f).trans (hf f).symm)).length_eq
  constructor
  · rintro ⟨ps', ms', h1, h2, h3, -⟩
    cases pieces_unique hp h1
    cases found_unique f1 h2
    omega
  · intro h
    exact ⟨ps, ms, hp, f1, by omega, hs, fun f => (hf f).trans (f3 f).symm⟩

/-! ### The pattern for polkadot-sdk -/

theorem sdk_once : ∀ x ∈ sdkPieces, x.2.count anyDirs ≤ 1 := by decide +kernel

/-- By what the patterns of the preset differ. -/
def sdkMark : Nat → List Str → Prop
  | 0, ns => ns.head? = some (str% "substrate")
  | 1, ns => ns.head? = some (str% "polkadot") ∧ ns[1]? = some (str% "runtime")
  | 2, ns => ns.head? = some (str% "polkadot") ∧ ns[1]? = some (str% "bridges")
  | 3, ns => ns.head? = some (str% "cumulus") ∧ ns.dropLast.getLast? = some (str% "weights")
  | 4, ns => ns.head? = some (str% "cumulus") ∧ ns.dropLast.getLast? = some (str% "xcm")
  | _, ns => ns.head? = some (str% "cumulus") ∧ ns.dropLast.getLast? = some (str% "src")

theorem sdk_marks {i : Nat} {x : Str × List Str} (hx : sdkPieces[i]? = some x) {ns : List Str} (h : DescribesPath x.2 ns) : sdkMark i ns := by
  have p1 := sdk_plain (str% "substrate") (by decide)
  have p3 := sdk_plain (str% "src") (by decide)
  have p4 := sdk_plain (str% "weights.rs") (by decide)
  have p5 := sdk_plain (str% "polkadot") (by decide)
  have p6 := sdk_plain (str% "runtime") (by decide)
  have p7 := sdk_plain (str% "weights") (by decide)
  have p8 := sdk_plain (str% "bridges") (by decide)
  have p10 := sdk_plain (str% "cumulus") (by decide)
  have p11 := sdk_plain (str% "xcm") (by decide)
  have anyc : ∀ (p : Str) (ps ns : List Str), DescribesPath (anyDirs :: p :: ps) ns ↔ ∃ a c, ns = a ++ c ∧ DescribesPath (p :: ps) c :=
    fun p ps ns => describesPath_any (by simp)
  have hend : ∀ (x : Str) (a : List Str) (y z : Str), (x :: (a ++ [y, z])).dropLast.getLast? = some y := by
    intro x a y z
    rw [show x :: (a ++ [y, z]) = (x :: a ++ [y]) ++ [z] by simp, List.dropLast_concat, List.getLast?_concat]
  match i, hx with
  | 0, hx =>
    cases Option.some.inj hx
    change DescribesPath (str% "substrate" :: _) ns at h
    replace h := (p1 _ _).1 h
    obtain ⟨ns', rfl, -⟩ := h
    rfl
  | 1, hx =>
    cases Option.some.inj hx
    change DescribesPath (str% "polkadot" :: str% "runtime" :: _) ns at h
    replace h := (p5 _ _).1 h
    obtain ⟨ns', rfl, h⟩ := h
    replace h := (p6 _ _).1 h
    obtain ⟨ns', rfl, -⟩ := h
    exact ⟨rfl, rfl⟩
  | 2, hx =>
    cases Option.some.inj hx
    change DescribesPath (str% "polkadot" :: str% "bridges" :: _) ns at h
    replace h := (p5 _ _).1 h
    obtain ⟨ns', rfl, h⟩ := h
    replace h := (p8 _ _).1 h
    obtain ⟨ns', rfl, -⟩ := h
    exact ⟨rfl, rfl⟩
  | 3, hx =>
    cases Option.some.inj hx
    change DescribesPath [str% "cumulus", anyDirs, str% "weights", str% "*.rs"] ns at h
    replace h := (p10 _ _).1 h
    obtain ⟨ns', rfl, h⟩ := h
    replace h := (anyc _ _ _).1 h
    obtain ⟨a, c, rfl, h⟩ := h
    replace h := (p7 _ _).1 h
    obtain ⟨c, rfl, h⟩ := h
    replace h := (sdk_rs _).1 h
    obtain ⟨b, rfl⟩ := h
    exact ⟨rfl, hend _ _ _ _⟩
  | 4, hx =>
    cases Option.some.inj hx
    change DescribesPath [str% "cumulus", anyDirs, str% "weights", str% "xcm", str% "*.rs"] ns at h
    replace h := (p10 _ _).1 h
    obtain ⟨ns', rfl, h⟩ := h
    replace h := (anyc _ _ _).1 h
    obtain ⟨a, c, rfl, h⟩ := h
    replace h := (p7 _ _).1 h
    obtain ⟨c, rfl, h⟩ := h
    replace h := (p11 _ _).1 h
    obtain ⟨c, rfl, h⟩ := h
    replace h := (sdk_rs _).1 h
    obtain ⟨b, rfl⟩ := h
    refine ⟨rfl, ?_⟩
    rw [show a ++ str% "weights" :: str% "xcm" :: [b ++ str% ".rs"] = (a ++ [str% "weights"]) ++ [str% "xcm", b ++ str% ".rs"] by simp]
    exact hend _ _ _ _
  | 5, hx =>
    cases Option.some.inj hx
    change DescribesPath [str% "cumulus", anyDirs, str% "src", str% "weights.rs"] ns at h
    replace h := (p10 _ _).1 h
    obtain ⟨ns', rfl, h⟩ := h
    replace h := (anyc _ _ _).1 h
    obtain ⟨a, c, rfl, h⟩ := h
    replace h := (p3 _ _).1 h
    obtain ⟨c, rfl, h⟩ := h
    replace h := (p4 _ _).1 h
    obtain ⟨c, rfl, h⟩ := h
    cases describesPath_nil.1 h
    exact ⟨rfl, hend _ _ _ _⟩
  | n + 6, hx => nomatch hx

theorem sdk_marks_differ {i j : Nat} (hij : i < j) (hj : j < 6) {ns : List Str} (h1 : sdkMark i ns) (h2 : sdkMark j ns) : False := by
  match i, j, hij, hj with
  | 0, 1, _, _ | 0, 2, _, _ | 0, 3, _, _ | 0, 4, _, _ | 0, 5, _, _ | 1, 2, _, _ | 1, 3, _, _ | 1, 4, _, _ | 1, 5, _, _ | 2, 3, _, _ | 2, 4, _, _ | 2, 5, _, _
  | 3, 4, _, _ | 3, 5, _, _ | 4, 5, _, _ => simp_all [sdkMark]
  | i + 5, j, hij, hj => omega
  | _, j + 6, _, hj => omega

theorem sdk_apart : NoOverlap (sdkPieces.map (·.1)) := by
  unfold NoOverlap
  rw [List.pairwise_map, List.pairwise_iff_getElem]
  intro i j hi hj hij comps comps' ns hc hc' h h'
  cases ordinary_unique hc (sdk_ordinary _ (List.getElem_mem hi))
  cases ordinary_unique hc' (sdk_ordinary _ (List.getElem_mem hj))
  exact sdk_marks_differ hij hj (sdk_marks (List.getElem?_eq_getElem hi) h) (sdk_marks (List.getElem?_eq_getElem hj) h')

/-- C98: the weight files of polkadot-sdk are listed if, and only if, there are not too many of them. -/
theorem C98_sdk_limit {disk : W.State → GlobDisk} (hW : OnDisk W disk) {base : Path} {pattern : Str} (hp : pathPresets.lookup (str% "polkadot-sdk") = some pattern)
    (maxFiles : Nat) {s : W.State} {repo : GlobSpot} (hr : RepoAt (disk s) base repo) (hd : Tidy repo.node) {files : List Path}
    (hs : files.Pairwise (fun a c => Path.cmp a c = .lt))
    (hf : ∀ f, f ∈ files ↔ ∃ ns n, LeadsTo repo.node ns n ∧ WeightFile ns ∧ ns.getLast? ≠ some (str% "mod.rs") ∧ f = undotted base ++ ns.map .normal) :
    Listed W s base pattern maxFiles files ↔ files.length ≤ maxFiles := by
  have hsplit : splitChar ',' pattern = sdkPieces.map (·.1) := by
    rw [← sdk_split, hp]; rfl
  refine C98_limit hW maxFiles hr hd (splitChar_pieces pattern) ?_ (hsplit ▸ sdk_apart) hs (fun f => (hf f).trans (sdk_wanted hp base repo.node f).symm)
  intro p h
  rw [hsplit] at h
  obtain ⟨x, hx, rfl⟩ := List.mem_map.1 h
  exact ⟨x.2, sdk_ordinary x hx, sdk_once x hx⟩

end Swc
