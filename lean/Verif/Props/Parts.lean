/-
C121: comparing a part of the files shows the rows of these files, exactly as the comparison of all files does.
-/
import Verif.Props.Narrow
import Verif.Props.Commands

namespace Swc

open Spec

namespace Spec

/-- The calls of the files whose names are wanted. -/
def ofFiles (wanted : Str → Bool) (l : List ChromaticExtrinsic) : List ChromaticExtrinsic := l.filter fun x => wanted x.pallet

/-- The last component of the path is a wanted name. -/
def wantedPath (wanted : Str → Bool) (p : Path) : Bool :=
  match p.getLast? with
  | some (.normal n) => wanted n
  | _ => false

/-- The name of a file in the report on two commits: its path within the repository. -/
def nameInRepo (repo p : Path) : Str := ((Path.stripPrefix repo p).getD p).display

/-- Whatever is checked out, the second pattern finds the wanted ones of the files that the first one finds. -/
def NarrowerPattern (W : World) (repo : Path) (pattern pattern' : Str) (maxFiles : Nat) (wanted : Str → Bool) : Prop :=
  ∀ st files, Listed W st repo pattern maxFiles files → Listed W st repo pattern' maxFiles (files.filter fun p => wanted (nameInRepo repo p))

end Spec

theorem firstOf_ofFiles {wanted : Str → Bool} {l : List ChromaticExtrinsic} {p e : Str} (hp : wanted p = true) {o : Option ChromaticExtrinsic}
    (h : FirstOf l p e o) : FirstOf (ofFiles wanted l) p e o := by
  cases o with
  | none => exact fun x hx => h x (List.mem_filter.1 hx).1
  | some x =>
    obtain ⟨hn, l1, l2, rfl, h1⟩ := h
    refine ⟨hn, ofFiles wanted l1, ofFiles wanted l2, ?_, fun y hy => h1 y (List.mem_filter.1 hy).1⟩
    unfold ofFiles
    rw [List.filter_append, List.filter_cons, if_pos]
    rw [hn.1]; exact hp

theorem present_ofFiles {wanted : Str → Bool} {olds news : List ChromaticExtrinsic} {p e : Str} :
    Present (ofFiles wanted olds) (ofFiles wanted news) p e ↔ Present olds news p e ∧ wanted p = true := by
  unfold Present ofFiles
  simp only [List.mem_filter]
  constructor
  · rintro ⟨x, h | h, hn⟩
    · exact ⟨⟨x, .inl h.1, hn⟩, hn.1 ▸ h.2⟩
    · exact ⟨⟨x, .inr h.1, hn⟩, hn.1 ▸ h.2⟩
  · rintro ⟨⟨x, h | h, hn⟩, hw⟩
    · exact ⟨x, .inl ⟨h, hn.1.symm ▸ hw⟩, hn⟩
    · exact ⟨x, .inr ⟨h, hn.1.symm ▸ hw⟩, hn⟩

theorem entry_ofFiles (b : Build) (ho : HashOrder) (olds news : List ChromaticExtrinsic) (params : CompareParams) {wanted : Str → Bool} {p e : Str}
    (hp : wanted p = true) : entry b ho (ofFiles wanted olds) (ofFiles wanted news) params (p, e) = entry b ho olds news params (p, e) := by
  unfold entry diffOne
  obtain ⟨o, a1, a2⟩ := findExtrinsic_first (d := params.unit) (l := olds) (p := p) (e := e)
  obtain ⟨n, b1, b2⟩ := findExtrinsic_first (d := params.unit) (l := news) (p := p) (e := e)
  obtain ⟨c1, c2⟩ := entry_eq (params := params) (firstOf_ofFiles hp a1) (firstOf_ofFiles hp b1)
  simp only [a2, b2, c1, c2]

/-- C121: comparing only the files with the wanted names gives exactly the entries of these files, unchanged and in the same order. -/
theorem C121_entries (b : Build) (ho : HashOrder) (rx : RegexEngine) (olds news : List ChromaticExtrinsic) (params : CompareParams) (f : FilterParams)
    (wanted : Str → Bool) (d d' : List ExtrinsicDiff) (h : compareFiles b ho rx olds news params f = .ok d)
    (h' : compareFiles b ho rx (ofFiles wanted olds) (ofFiles wanted news) params f = .ok d') : d' = d.filter fun e => wanted e.file := by
  obtain ⟨s1, m1⟩ := C32_exactly_once b ho rx olds news params f d h
  obtain ⟨s2, m2⟩ := C32_exactly_once b ho rx _ _ params f d' h'
  have same : ∀ x ∈ d, ∀ y ∈ d', wanted x.file = true → x.file = y.file → x.name = y.name → x = y := by
    intro x hx y hy hw e1 e2
    obtain ⟨o, h1, _⟩ := findExtrinsic_first (d := params.unit) (l := olds) (p := x.file) (e := x.name)
    obtain ⟨n, h2, _⟩ := findExtrinsic_first (d := params.unit) (l := news) (p := x.file) (e := x.name)
    exact C33_local b ho rx rx olds news _ _ params f f d d' h h' x.file x.name o n h1 h2 (firstOf_ofFiles hw h1) (firstOf_ofFiles hw h2) x y hx hy
      ⟨rfl, rfl⟩ ⟨e1.symm, e2.symm⟩
  have nd : ∀ {x : List ExtrinsicDiff}, (x.map fun d => (d.file, d.name)).Pairwise Before → x.Nodup := by
    intro x hx
    refine List.Nodup.of_map (fun d : ExtrinsicDiff => (d.file, d.name)) (hx.imp fun {a c} hab => ?_)
    rintro rfl
    exact before_irrefl _ hab
  have hmem : ∀ e, e ∈ d' ↔ e ∈ d.filter (fun e => wanted e.file) := by
    intro e
    rw [List.mem_filter]
    constructor
    · intro he
      obtain ⟨hp, hsel⟩ := (m2 e.file e.name).1 ⟨e, he, rfl, rfl⟩
      obtain ⟨hp, hw⟩ := present_ofFiles.1 hp
      obtain ⟨x, hx, e1, e2⟩ := (m1 e.file e.name).2 ⟨hp, hsel⟩
      have hw' : wanted x.file = true := by rw [e1]; exact hw
      rw [← same x hx e he hw' e1 e2]
      exact ⟨hx, hw'⟩
    · rintro ⟨he, hw⟩
      obtain ⟨hp, hsel⟩ := (m1 e.file e.name).1 ⟨e, he, rfl, rfl⟩
      obtain ⟨y, hy, e1, e2⟩ := (m2 e.file e.name).2 ⟨present_ofFiles.2 ⟨hp, hw⟩, hsel⟩
      rw [same e he y hy hw e1.symm e2.symm]
      exact hy
  refine ((List.perm_ext_iff_of_nodup (nd s2) ((nd s1).filter _)).2 hmem).eq_of_pairwise (le := fun a c => Before (a.file, a.name) (c.file, c.name))
    (fun a c _ _ h1 h2 => (before_asymm h1 h2).elim) (List.pairwise_map.1 s2) ((List.pairwise_map.1 s1).sublist List.filter_sublist)

/-- C121: if the comparison of all files succeeds, so does that of a part. -/
theorem C121_part_succeeds (b : Build) (ho : HashOrder) (rx : RegexEngine) (olds news : List ChromaticExtrinsic) (params : CompareParams) (f : FilterParams)
    (wanted : Str → Bool) (d : List ExtrinsicDiff) (h : compareFiles b ho rx olds news params f = .ok d) :
    ∃ d', compareFiles b ho rx (ofFiles wanted olds) (ofFiles wanted news) params f = .ok d' := by
  obtain ⟨names, _, hm, hf⟩ := compareFiles_ok h
  rw [compareFiles_eq] at h ⊢
  obtain ⟨er, he, h⟩ := bind_eq_ok h
  obtain ⟨pr, hp, h⟩ := bind_eq_ok h
  rw [he, hp]
  simp only [Res.bind_ok]
  apply mapM_ok_of_forall
  rintro ⟨p, e⟩ hpe
  obtain ⟨h1, h2⟩ := List.mem_filter.1 hpe
  have hsel : Selected rx f p e := by
    rw [Bool.and_eq_true, compileOpt_matches hp, compileOpt_matches he] at h2
    exact h2
  obtain ⟨h3, hw⟩ := present_ofFiles.1 (mem_namesOf.1 h1)
  obtain ⟨x, _, hx⟩ := forall₂_mem_left hf ((hm p e).2 ⟨h3, hsel⟩)
  exact ⟨x, by rw [entry_ofFiles b ho olds news params hw]; exact hx⟩

/-- C121: if the comparison of some files and that of the others succeed, so does the comparison of all files. -/
theorem C121_whole_succeeds (b : Build) (ho : HashOrder) (rx : RegexEngine) (olds news : List ChromaticExtrinsic) (params : CompareParams) (f : FilterParams)
    (wanted : Str → Bool) (d1 d2 : List ExtrinsicDiff) (h1 : compareFiles b ho rx (ofFiles wanted olds) (ofFiles wanted news) params f = .ok d1)
    (h2 : compareFiles b ho rx (ofFiles (fun n => !wanted n) olds) (ofFiles (fun n => !wanted n) news) params f = .ok d2) :
    ∃ d, compareFiles b ho rx olds news params f = .ok d := by
  obtain ⟨names1, _, hm1, hf1⟩ := compareFiles_ok h1
  obtain ⟨names2, _, hm2, hf2⟩ := compareFiles_ok h2
  rw [compareFiles_eq] at h1 ⊢
  obtain ⟨er, he, h1⟩ := bind_eq_ok h1
  obtain ⟨pr, hp, h1⟩ := bind_eq_ok h1
  rw [he, hp]
  simp only [Res.bind_ok]
  apply mapM_ok_of_forall
  rintro ⟨p, e⟩ hpe
  obtain ⟨g1, g2⟩ := List.mem_filter.1 hpe
  have hsel : Selected rx f p e := by
    rw [Bool.and_eq_true, compileOpt_matches hp, compileOpt_matches he] at g2
    exact g2
  have g3 := mem_namesOf.1 g1
  cases hw : wanted p with
  | true =>
    obtain ⟨x, _, hx⟩ := forall₂_mem_left hf1 ((hm1 p e).2 ⟨present_ofFiles.2 ⟨g3, hw⟩, hsel⟩)
    exact ⟨x, by rw [← entry_ofFiles b ho olds news params hw]; exact hx⟩
  | false =>
    have hw' : (fun n => !wanted n) p = true := by simp [hw]
    obtain ⟨x, _, hx⟩ := forall₂_mem_left hf2 ((hm2 p e).2 ⟨present_ofFiles.2 ⟨g3, hw'⟩, hsel⟩)
    exact ⟨x, by rw [← entry_ofFiles b ho olds news params (wanted := fun n => !wanted n) hw']; exact hx⟩

theorem filter_filterChanges (d : List ExtrinsicDiff) (f : FilterParams) (q : ExtrinsicDiff → Bool) :
    filterChanges (d.filter q) f = (filterChanges d f).filter q := by
  unfold filterChanges
  rw [List.filter_filter, List.filter_filter]
  exact List.filter_congr fun e _ => Bool.and_comm ..

/-- C121: the filtered and sorted report of a part of the files consists of the rows of these files in the report of all files, in the same order. -/
theorem C121_report (b : Build) (ho : HashOrder) (rx : RegexEngine) (olds news : List ChromaticExtrinsic) (params : CompareParams) (f : FilterParams)
    (wanted : Str → Bool) (d d' : List ExtrinsicDiff) (h : compareFiles b ho rx olds news params f = .ok d)
    (h' : compareFiles b ho rx (ofFiles wanted olds) (ofFiles wanted news) params f = .ok d') :
    sortChanges (filterChanges d' f) = (sortChanges (filterChanges d f)).filter fun e => wanted e.file := by
  rw [C121_entries b ho rx olds news params f wanted d d' h h', filter_filterChanges, C37_part]

/-- C121: the reports of some files and of the others together have the rows of the report of all files, each of them once. -/
theorem C121_together (b : Build) (ho : HashOrder) (rx : RegexEngine) (olds news : List ChromaticExtrinsic) (params : CompareParams) (f : FilterParams)
    (wanted : Str → Bool) (d d1 d2 : List ExtrinsicDiff) (h : compareFiles b ho rx olds news params f = .ok d)
    (h1 : compareFiles b ho rx (ofFiles wanted olds) (ofFiles wanted news) params f = .ok d1)
    (h2 : compareFiles b ho rx (ofFiles (fun n => !wanted n) olds) (ofFiles (fun n => !wanted n) news) params f = .ok d2) :
    (sortChanges (filterChanges d1 f) ++ sortChanges (filterChanges d2 f)).Perm (sortChanges (filterChanges d f)) := by
  rw [C121_report b ho rx olds news params f wanted d d1 h h1, C121_report b ho rx olds news params f _ d d2 h h2]
  exact List.filter_append_perm _ _

/-! ### Files -/

theorem understood_pallet {env : Env} {fs : Fs} {file : Path} {n : Str} {x : List ChromaticExtrinsic} (h : UnderstoodFile env fs file n x) :
    ∀ e ∈ x, e.pallet = n := by
  obtain ⟨_, _, _, _, _, _, ⟨_, _, _, _, _, hf⟩, _⟩ := h
  intro e he
  obtain ⟨_, _, hy⟩ := forall₂_mem_right hf he
  exact hy.2.2.1

theorem wantedPath_name (wanted : Str → Bool) (dir : Path) (n : Str) : wantedPath wanted (dir ++ [.normal n]) = wanted n := by
  simp [wantedPath]

/-- C121: reading only the files with the wanted names gives the calls of these files. -/
theorem C121_read {env : Env} {fs : Fs} {ign : Bool} {files : List Path} {exts : List ChromaticExtrinsic} (wanted : Str → Bool)
    (h : ReadFiles env fs ign files exts) : ReadFiles env fs ign (files.filter (wantedPath wanted)) (ofFiles wanted exts) := by
  obtain ⟨parts, h, rfl⟩ := h
  induction h with
  | nil => exact ⟨[], .nil, rfl⟩
  | @cons p x files parts hp _ ih =>
    obtain ⟨parts', h', e⟩ := ih
    have split : ofFiles wanted (x :: parts).flatten = ofFiles wanted x ++ parts'.flatten := by
      rw [← e]; simp [ofFiles]
    rw [split, List.filter_cons]
    rcases hp with ⟨dir, n, rfl, hu⟩ | ⟨hi, rfl, m, hm⟩
    · rw [wantedPath_name]
      have hx := understood_pallet hu
      cases hw : wanted n with
      | true =>
        rw [if_pos rfl]
        have : ofFiles wanted x = x := List.filter_eq_self.2 fun e he => by rw [hx e he]; exact hw
        rw [this]
        exact ⟨x :: parts', .cons (.inl ⟨dir, n, rfl, hu⟩) h', rfl⟩
      | false =>
        rw [if_neg (by simp)]
        have : ofFiles wanted x = [] := List.filter_eq_nil_iff.2 fun e he => by rw [hx e he, hw]; simp
        rw [this]
        exact ⟨parts', h', rfl⟩
    · split
      · exact ⟨[] :: parts', .cons (.inr ⟨hi, rfl, m, hm⟩) h', rfl⟩
      · exact ⟨parts', h', rfl⟩

/-- C121: `compare files` given only the files with the wanted names shows the rows of the wanted names of what it shows given all of them. -/
theorem C121_command (b : Build) (ho : HashOrder) (rx : RegexEngine) (env : Env) (penv : PrintEnv) (fs : Fs) (params : CompareParams) (filter : FilterParams)
    (f : FormatParams) (old new : List Path) (wanted : Str → Bool) (shown : Shown)
    (h : cliCompareFiles b ho rx env penv fs params filter f old new = .ok shown) :
    ∃ diff diff', showDiff penv f filter params.unit diff = .ok shown ∧
      cliCompareFiles b ho rx env penv fs params filter f (old.filter (wantedPath wanted)) (new.filter (wantedPath wanted))
        = showDiff penv f filter params.unit diff' ∧
      diff' = diff.filter fun e => wanted e.file := by
  obtain ⟨olds, news, diff, h1, h2, h3, h4⟩ := (C76_files ..).1 h
  obtain ⟨diff', h5⟩ := C121_part_succeeds b ho rx olds news params filter wanted diff h3
  refine ⟨diff, diff', h4, ?_, C121_entries b ho rx olds news params filter wanted diff diff' h3 h5⟩
  rw [cliCompareFiles_eq, (readFiles_iff _ _ _ _ _).2 (C121_read wanted h1), Res.bind_ok, (readFiles_iff _ _ _ _ _).2 (C121_read wanted h2), Res.bind_ok,
    h5, Res.bind_ok]

/-! ### Commits -/

theorem parsedAs_ofFiles {W : World} {env : Env} {repo : Path} {ign : Bool} {st : W.State} {files : List Path} {exts : List ChromaticExtrinsic}
    (wanted : Str → Bool) (h : ParsedAs W env repo ign st files exts) :
    ParsedAs W env repo ign st (files.filter fun p => wanted (nameInRepo repo p)) (ofFiles wanted exts) := by
  obtain ⟨parts, h, rfl⟩ := h
  induction h with
  | nil => exact ⟨[], .nil, rfl⟩
  | @cons p x files parts hp _ ih =>
    obtain ⟨parts', h', e⟩ := ih
    have split : ofFiles wanted (x :: parts).flatten = ofFiles wanted x ++ parts'.flatten := by
      rw [← e]; simp [ofFiles]
    rw [split, List.filter_cons]
    rcases hp with hu | ⟨hi, rfl, hm⟩
    · have hx := understood_pallet hu
      change ∀ e ∈ x, e.pallet = nameInRepo repo p at hx
      cases hw : wanted (nameInRepo repo p) with
      | true =>
        rw [if_pos rfl]
        have : ofFiles wanted x = x := List.filter_eq_self.2 fun e he => by rw [hx e he]; exact hw
        rw [this]
        exact ⟨x :: parts', .cons (.inl hu) h', rfl⟩
      | false =>
        rw [if_neg (by simp)]
        have : ofFiles wanted x = [] := List.filter_eq_nil_iff.2 fun e he => by rw [hx e he, hw]; simp
        rw [this]
        exact ⟨parts', h', rfl⟩
    · split
      · exact ⟨[] :: parts', .cons (.inr ⟨hi, rfl, hm⟩) h', rfl⟩
      · exact ⟨parts', h', rfl⟩

/-- C121: two commits compared with a narrower path pattern: the comparison succeeds if the wider one does, leaves the repository in the same state, and its
report consists of the rows of the files that the narrower pattern finds, unchanged and in the same order. -/
theorem C121_commits {W : World} (b : Build) (ho : HashOrder) (rx : RegexEngine) (env : Env) (repo : Path) (old new : Str) (params : CompareParams)
    (f : FilterParams) (pattern pattern' : Str) (maxFiles : Nat) (wanted : Str → Bool) (hd : ¬ DotDot pattern')
    (hn : NarrowerPattern W repo pattern pattern' maxFiles wanted) (s s1 : Run W) (d : List ExtrinsicDiff)
    (h : compareCommits b ho rx env repo old new params f pattern maxFiles s = (.ok d, s1)) :
    ∃ d' s2, compareCommits b ho rx env repo old new params f pattern' maxFiles s = (.ok d', s2) ∧ s2.state = s1.state ∧
      d' = (d.filter fun e => wanted e.file) ∧
      sortChanges (filterChanges d' f) = (sortChanges (filterChanges d f)).filter fun e => wanted e.file := by
  obtain ⟨hdot, ps, G1, st1, files1, olds, G2, st2, files2, news, k1, k2, k3, k4, k5, k6, k7, k8, k9, k10⟩ := (C41_compare_commits ..).1 h
  obtain ⟨d', hd'⟩ := C121_part_succeeds b ho rx olds news params f wanted d k8
  refine ⟨d', ⟨s1.state, s.log ++ G1 ++ globs repo (splitChar ',' pattern') ++ [.parse (files1.filter fun p => wanted (nameInRepo repo p))] ++ G2
    ++ globs repo (splitChar ',' pattern') ++ [.parse (files2.filter fun p => wanted (nameInRepo repo p))]⟩, (C41_compare_commits ..).2 ⟨hd, _, G1, st1, _, _, G2, st2, _, _, splitChar_pieces pattern', k2, hn _ _ k3, parsedAs_ofFiles wanted k4,
    k5, hn _ _ k6, parsedAs_ofFiles wanted k7, hd', k9, rfl⟩, rfl, C121_entries b ho rx olds news params f wanted d d' k8 hd',
    C121_report b ho rx olds news params f wanted d d' k8 hd'⟩

/-- As `exWorld`, but the pattern `a.rs` matches this file only. -/
def exPartWorld : World := { exWorld with
  glob := fun s p => if p = str% "r/a.rs" then .ok [.ok [.normal (str% "r"), .normal (str% "a.rs")]] else exWorld.glob s p }

/-- The pattern `a.rs` is narrower than `*`, for the file `a.rs`. -/
theorem exPartWorld_narrower : NarrowerPattern exPartWorld [.normal (str% "r")] (str% "*") (str% "a.rs") 2 (· == str% "a.rs") := by
  intro st files h
  have h1 : Listed exPartWorld st [.normal (str% "r")] (str% "*") 2 [[.normal (str% "r"), .normal (str% "a.rs")], [.normal (str% "r"), .normal (str% "w.rs")]] :=
    ((C38_listed (W := exPartWorld) _ _ _ ⟨st, []⟩ _ _).1 (by rfl)).1
  have h2 : Listed exPartWorld st [.normal (str% "r")] (str% "a.rs") 2 [[.normal (str% "r"), .normal (str% "a.rs")]] :=
    ((C38_listed (W := exPartWorld) _ _ _ ⟨st, []⟩ _ _).1 (by rfl)).1
  have a := (C38_listed (W := exPartWorld) _ _ _ ⟨st, []⟩ _ _).2 ⟨h, _, splitChar_pieces _, rfl⟩
  have c := (C38_listed (W := exPartWorld) _ _ _ ⟨st, []⟩ _ _).2 ⟨h1, _, splitChar_pieces _, rfl⟩
  rw [a] at c
  simp only [Prod.mk.injEq, Res.ok.injEq, and_true] at c
  subst c
  exact h2

example : ((compareCommits (W := exPartWorld) .release idOrder exRegex exEnv [.normal (str% "r")] (str% "v1") (str% "v2") ⟨.base, .time, false, false, false, false⟩
    exFilter (str% "a.rs") 2 ⟨str% "start", []⟩).1.map (List.map exShow)) =
    .ok [⟨str% "a.rs", str% "transfer", some 10, some 20, some .changed, false⟩] := by decide +kernel

/-- C121, against what one might expect: this is about names of files.  Two files of the same name in different directories share their rows, so comparing the
directories one after the other shows other rows than comparing them together: here the second file is compared alone, but hidden by the first one
otherwise. -/
theorem C121_false_directories : ∃ olds1 olds2 news1 news2 d1 d2 d,
    compareFiles .release idOrder exRegex olds1 news1 (exParams .base .time) exFilter = .ok d1 ∧
    compareFiles .release idOrder exRegex olds2 news2 (exParams .base .time) exFilter = .ok d2 ∧
    compareFiles .release idOrder exRegex (olds1 ++ olds2) (news1 ++ news2) (exParams .base .time) exFilter = .ok d ∧
    ∃ e ∈ d2, e ∉ d := by
  refine ⟨[exExtr (str% "b") (str% "f") (.value ⟨10, 1⟩)], [exExtr (str% "b") (str% "f") (.value ⟨30, 1⟩)], [exExtr (str% "b") (str% "f") (.value ⟨10, 1⟩)],
    [exExtr (str% "b") (str% "f") (.value ⟨60, 1⟩)], _, _, _, rfl, rfl, rfl, ?_⟩
  decide +kernel

/-- The example of C32 with the file `b` only. -/
example : (compareFiles .release idOrder exRegex (ofFiles (· == str% "b") exOlds) (ofFiles (· == str% "b") exNews) (exParams .base .time) exFilter).map
    (List.map exShow) =
    .ok [⟨str% "b", str% "f", some 10, some 20, some .changed, false⟩,
         ⟨str% "b", str% "h", none, some 25025000000, some .added, true⟩] := by decide +kernel

/-- The paths of the wanted files. -/
example : ([[.normal (str% "x"), .normal (str% "b.rs")], [.normal (str% "a.rs")], [.normal (str% "y"), .normal (str% "b.rs")]] : List Path).filter
    (wantedPath (· == str% "b.rs")) = [[.normal (str% "x"), .normal (str% "b.rs")], [.normal (str% "y"), .normal (str% "b.rs")]] := by decide

end Swc
