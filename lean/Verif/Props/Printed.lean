/-
C92: what the command line tool prints, from its arguments to the rows.
-/
import Verif.Spec.Printed
import Verif.Props.Alive
import Verif.Props.CommandLine
import Verif.Props.CliOut
import Verif.Props.Report
import Verif.Props.ReportPage

namespace Swc

open Spec

/-! ### From the report to the rows -/

theorem failed_iff {e : ExtrinsicDiff} : Failed e ↔ numbers e.change = none := by
  unfold Failed numbers
  cases e.change <;> simp

theorem arranged_sorted (filter : FilterParams) (all : List ExtrinsicDiff) :
    Arranged filter all
      ((sortChanges (filterChanges all filter)).reverse.filter (fun e => (numbers e.change).isNone) ++
        (sortChanges (filterChanges all filter)).reverse.filter fun e => (numbers e.change).isSome) := by
  have hs := C37_sort_changes (filterChanges all filter)
  have hp : (sortChanges (filterChanges all filter)).reverse.Perm (filterChanges all filter) := (List.reverse_perm _).trans hs.perm
  refine ⟨⟨keepChange filter, fun _ => keepChange_iff, ?_⟩, ?_⟩
  · refine List.Perm.trans ?_ hp
    have := List.filter_append_perm (fun e : ExtrinsicDiff => (numbers e.change).isNone) (sortChanges (filterChanges all filter)).reverse
    refine List.Perm.trans (.of_eq ?_) this
    congr 2
    funext e
    cases numbers e.change <;> rfl
  · have hn : ∀ {l : List ExtrinsicDiff} {e : ExtrinsicDiff}, e ∈ l.filter (fun e => (numbers e.change).isNone) → Failed e := by
      intro l e he
      exact failed_iff.2 (by simpa using (List.mem_filter.1 he).2)
    have hy : ∀ {l : List ExtrinsicDiff} {e : ExtrinsicDiff}, e ∈ l.filter (fun e => (numbers e.change).isSome) → ¬ Failed e := by
      intro l e he hf
      have := (List.mem_filter.1 he).2
      rw [failed_iff.1 hf] at this
      cases this
    rw [List.pairwise_append]
    refine ⟨List.pairwise_of_forall_mem_list fun a ha _ _ => .inl (hn ha), ?_, fun a ha _ _ => .inl (hn ha)⟩
    obtain ⟨fl, r, e, h5, h6, h7⟩ := hs.split
    have : ((sortChanges (filterChanges all filter)).reverse.filter fun e => (numbers e.change).isSome).Pairwise fun a b => sortKey b ≤ sortKey a := by
      rw [e, List.filter_reverse, List.pairwise_reverse, List.filter_append]
      rw [List.filter_eq_nil_iff.2 (fun x hx => by
        have := h5 x hx
        rw [isFailed_eq] at this
        simpa using this), List.nil_append]
      exact h7.filter _
    exact this.imp_of_mem fun _ hb h => .inr ⟨hy hb, h⟩

theorem kept_of_ne {filter : FilterParams} {all : List ExtrinsicDiff} (h : filterChanges all filter ≠ []) : ∃ e ∈ all, Kept filter e := by
  obtain ⟨e, he⟩ := List.exists_mem_of_ne_nil _ h
  obtain ⟨h1, h2⟩ := List.mem_filter.1 he
  exact ⟨e, h1, keepChange_iff.1 h2⟩

/-- C92: what is printed of a report.  If no entry passes the filter then nothing is.  Otherwise tables have one row for each error, then one for each other
entry that passes the filter, the largest change first; comma separated values have the latter only. -/
theorem C92_displays (penv : PrintEnv) (f : FormatParams) (filter : FilterParams) (unit : Dimension) (all : List ExtrinsicDiff) (nm : Str → Str)
    (hf : f.format = .human ∨ f.format = .markdown ∨ f.format = .csv) (hg : f.format ≠ .csv → Filters penv f nm)
    (hc : f.format = .csv → f.printTerms = false ∧ CleanNames all) (hw : ∀ e ∈ all, U128Weights e) :
    ∃ shown, showDiff penv f filter unit all = .ok shown ∧ Displays penv.debugScope f filter unit nm all shown := by
  have hs := C37_sort_changes (filterChanges all filter)
  have hp : (sortChanges (filterChanges all filter)).reverse.Perm (filterChanges all filter) := (List.reverse_perm _).trans hs.perm
  by_cases hne : filterChanges all filter = []
  · refine ⟨.nothing, ?_, .nothing fun e he hk => ?_⟩
    · have : (sortChanges (filterChanges all filter)).reverse = [] := by rw [hne] at hp ⊢; exact List.perm_nil.1 hp
      unfold showDiff
      rw [this]
      exact C61_empty penv f unit hf
    · have : e ∈ filterChanges all filter := List.mem_filter.2 ⟨he, keepChange_iff.2 hk⟩
      rw [hne] at this
      cases this
  · obtain ⟨e0, he0, hk0⟩ := kept_of_ne hne
    have hne' : (sortChanges (filterChanges all filter)).reverse ≠ [] := by
      intro h
      rw [h] at hp
      exact hne (List.nil_perm.1 hp)
    have harr := arranged_sorted filter all
    unfold showDiff
    generalize (sortChanges (filterChanges all filter)).reverse = L at hp hne' harr
    have hw' : ∀ e ∈ L, U128Weights e := fun e he => hw e (List.mem_of_mem_filter (hp.subset he))
    have table : f.format ≠ .csv → ∃ t, printChangesHuman penv L f unit = .ok (some t) ∧ TableOf penv.debugScope f filter unit nm all t := by
      intro hcsv
      obtain ⟨header, errs, rows, h1, h2, h3, h4⟩ := C61_table penv f unit L hne' nm (hg hcsv) hw'
      refine ⟨_, h1, h2, _, harr, List.rel_append ?_ ?_⟩
      · refine forall₂_imp h3 fun e he row hrow => .inl ⟨failed_iff.2 ?_, hrow⟩
        simpa using (List.mem_filter.1 he).2
      · exact forall₂_imp h4 fun e _ row hrow => .inr hrow
    rcases hf with hf | hf | hf
    · obtain ⟨t, h1, h2⟩ := table (by rw [hf]; exact fun h => nomatch h)
      refine ⟨.table t (decide (f.format = .markdown)), ?_, .table (.inl hf) he0 hk0 h2⟩
      unfold printChanges
      rw [hf]
      dsimp only
      rw [h1]
      rfl
    · obtain ⟨t, h1, h2⟩ := table (by rw [hf]; exact fun h => nomatch h)
      refine ⟨.table t (decide (f.format = .markdown)), ?_, .table (.inr hf) he0 hk0 h2⟩
      unfold printChanges
      rw [hf]
      dsimp only
      rw [h1]
      rfl
    · obtain ⟨hc1, hc2⟩ := hc hf
      obtain ⟨rows, h1, h2⟩ := C60_csv penv f unit L hne' hc1 (fun e he => hc2 e (List.mem_of_mem_filter (hp.subset he))) hw'
      refine ⟨.csv (printChangesCsv penv L f unit), ?_, .csv hf he0 hk0 ⟨_, _, rows, harr, fun e he => failed_iff.2 ?_, h1, h2⟩⟩
      · unfold printChanges
        rw [hf]
        dsimp only
        rw [if_neg (by simpa using hne')]
      · simpa using (List.mem_filter.1 he).2

/-! ### From the files to the report -/

namespace Gen

theorem understood_content {env : Env} {fs : Fs} {p : Path} {name content : Str} {x : List ChromaticExtrinsic} (h : fs p = .ok content)
    (hx : parseContent env.syn env.cc name content = .ok x) : UnderstoodFile env fs p name x := by
  obtain ⟨pre, i, post, h'⟩ := (C108_file _ _ _ _ _).1 hx
  exact ⟨content, pre, i, post, h, h'⟩

theorem functions_in {cc : CharClass} {fs : Fs} {lenient : Bool} {files : List Path} {l : List Located} (h : FunctionsIn fs lenient files l) :
    ∃ exts, ReadFiles ⟨rustSyn, cc⟩ fs lenient files exts ∧ List.Forall₂ Read l exts := by
  induction h with
  | nil => exact ⟨[], ⟨[], .nil, rfl⟩, .nil⟩
  | @file path content name style fns files l hc hg hne hok hn _ ih =>
    obtain ⟨exts, ⟨parts, h1, rfl⟩, h2⟩ := ih
    obtain ⟨es, h3, h4⟩ := file_read cc name hg hne hok
    obtain ⟨dir, hd⟩ := hn
    refine ⟨es ++ parts.flatten, ⟨es :: parts, .cons (.inl ⟨dir, name, hd, understood_content hc h3⟩) h1, rfl⟩, List.rel_append ?_ h2⟩
    rw [List.forall₂_map_left_iff]
    exact List.forall₂_iff_get.2 ⟨h4.length_eq, fun i hi hi' => ⟨hok _ (List.get_mem _ _), (List.forall₂_iff_get.1 h4).2 i hi hi'⟩⟩
  | @other path content name items files l hlen hc hi hno hn _ ih =>
    obtain ⟨exts, ⟨parts, h1, rfl⟩, h2⟩ := ih
    obtain ⟨dir, hd⟩ := hn
    obtain ⟨m, hm⟩ := no_pallet_content cc (rustSyn_fileText hi) hno name
    exact ⟨parts.flatten, ⟨[] :: parts, .cons (.inr ⟨hlen, rfl, _, (content_notParsed hc name _).1 (congrArg (withFile path) hm), fun _ _ => ⟨dir, name, hd⟩⟩) h1, rfl⟩, h2⟩

end Gen

theorem readFiles_fit {env : Env} {fs : Fs} {ign : Bool} {files : List Path} {exts : List ChromaticExtrinsic}
    (h : ReadFiles env fs ign files exts) : SidesFit exts := by
  obtain ⟨parts, h, rfl⟩ := h
  induction h with
  | nil => exact sidesFit_nil
  | cons h1 _ ih =>
    refine sidesFit_append ?_ ih
    rcases h1 with ⟨_, _, _, _, _, _, _, _, h⟩ | ⟨_, rfl, _⟩
    · exact C90_parsed ((C108_file _ _ _ _ _).2 ⟨_, _, _, h⟩)
    · exact sidesFit_nil

theorem sepFree_name {x : Str} (h : Name x) : SepFree x := by
  obtain ⟨⟨c, r, rfl, h1, h2⟩, -⟩ := h
  have key : ∀ d : Char, WordChar d → d ≠ ',' ∧ d ≠ '\n' := by
    intro d hd
    constructor <;> rintro rfl <;> revert hd <;> unfold WordChar <;> decide
  intro d hd
  rcases List.mem_cons.1 hd with rfl | hd
  · constructor <;> rintro rfl <;> revert h1 <;> decide
  · exact key d (h2 d hd)

theorem functions_named {fs : Fs} {named : Path → Str → Prop} {lenient : Bool} {files : List Path} {l : List Located}
    (h : FunctionsBy fs named lenient files l) : ∀ x ∈ l, x.fn.Ok x.style := by
  induction h with
  | nil => exact fun _ h => nomatch h
  | file hc hg hne hok hn _ ih =>
    intro x hx
    rcases List.mem_append.1 hx with hx | hx
    · obtain ⟨f, hf, rfl⟩ := List.mem_map.1 hx
      exact hok f hf
    · exact ih x hx
  | other _ _ _ _ _ _ ih => exact ih

theorem complete_clean {rx : RegexEngine} {filter : FilterParams} {m : CompareMethod} {d : Dimension} {olds news : List Located}
    {diff : List ExtrinsicDiff} (h : CompleteReport rx filter m d olds news diff) (hn : ∀ x, x ∈ olds ∨ x ∈ news → x.fn.Ok x.style)
    (hf : ∀ x, x ∈ olds ∨ x ∈ news → SepFree x.file) : CleanNames diff := by
  intro e he
  obtain ⟨⟨x, hx, h1, h2⟩, -⟩ := (h.2.1 e.file e.name).1 ⟨e, he, rfl, rfl⟩
  rw [← h1, ← h2]
  exact ⟨hf x hx, sepFree_name (hn x hx).1⟩

/-! ### From the arguments to the rows -/

/-- The output is in a format that is printed.  In tables files can be named as asked for (namely as `nm` says); comma separated values are only
readable without equations and if names have no commas. -/
structure Legible (penv : PrintEnv) (f : FormatParams) (nm : Str → Str) (files : Str → Prop) : Prop where
  format : f.format = .human ∨ f.format = .markdown ∨ f.format = .csv
  named : f.format ≠ .csv → Filters penv f nm
  csv : f.format = .csv → f.printTerms = false ∧ ∀ p, files p → SepFree p

/-- C92: `subweight compare commits …` prints the complete report.  The two revisions that are named can be checked out and their files listed, and all
files are generated weight files (or, with `--ignore-errors`, files without any `impl` block).  Then what is printed is the complete report on
the functions in them: it has all of its entries that pass the filter, and no others. -/
theorem C92_commits {W : World} (b : Build) (hash : HashOrder) (rx : RegexEngine) (cc : CharClass) (penv : PrintEnv) (rest : List Str) (s : Run W)
    {g : List Given} {v : Bool} {params : CompareParams} {filter : FilterParams} {format : FormatParams} {old new : Str} {repo : Path} {pattern : Str}
    (hw : Written commitsArguments g rest) (hs : SaysCommits g v params filter format old new repo pattern) (hdot : ¬ DotDot pattern)
    {G1 G2 : List Event} {s1 s2 : W.State} {files1 files2 : List Path} {olds news : List Located}
    (c1 : CheckedOut W old params.shouldPull params.gitForce s.state G1 s1) (l1 : Listed W s1 repo pattern (2 ^ 64 - 1) files1)
    (f1 : FunctionsOf (W.fs s1) repo params.ignoreErrors files1 olds)
    (c2 : CheckedOut W new params.shouldPull params.gitForce s1 G2 s2) (l2 : Listed W s2 repo pattern (2 ^ 64 - 1) files2)
    (f2 : FunctionsOf (W.fs s2) repo params.ignoreErrors files2 news)
    (hrx : ∀ q, filter.pallet = some q ∨ filter.extrinsic = some q → rx.compile q ≠ none)
    (hsz : AllSized params.method params.unit olds news) {nm : Str → Str}
    (hl : Legible penv format nm fun p => ∃ x, (x ∈ olds ∨ x ∈ news) ∧ x.file = p) :
    ∃ all shown s', cliMain b hash rx ⟨rustSyn, cc⟩ penv (str% "compare" :: str% "commits" :: rest) s = (.ok (some (.inl shown)), s') ∧
      s'.state = s2 ∧ CompleteReport rx filter params.method params.unit olds news all ∧
      Displays penv.debugScope format filter params.unit nm all shown := by
  obtain ⟨os, p1, r1⟩ := Gen.functions_parsed (cc := cc) f1
  obtain ⟨ns, p2, r2⟩ := Gen.functions_parsed (cc := cc) f2
  obtain ⟨all, hd⟩ := Gen.report_exists (b := b) (hash := hash) (rx := rx) (filter := filter) r1 r2 hsz hrx
  obtain ⟨ps, ms, hps, _⟩ := id l1
  have hcr := Gen.complete_of r1 r2 hsz hd
  have hcc := (C41_compare_commits b hash rx ⟨rustSyn, cc⟩ repo old new params filter pattern (2 ^ 64 - 1) s
    ⟨s2, s.log ++ G1 ++ globs repo ps ++ [.parse files1] ++ G2 ++ globs repo ps ++ [.parse files2]⟩ all).2
    ⟨hdot, ps, G1, s1, files1, os, G2, s2, files2, ns, hps, c1, l1, p1, c2, l2, p2, hd, rfl, rfl⟩
  have hfit : FitReport all := by
    refine (endsWell_run (endsWell_commits (W := W) (calm := False) (b := b) (env := ⟨rustSyn, cc⟩) (fun h => h.elim) hash rx repo old new params filter pattern (2 ^ 64 - 1)) s.state).2 all ?_
    rw [refines_compareCommits b hash rx ⟨rustSyn, cc⟩ repo old new params filter pattern (2 ^ 64 - 1) s, hcc]
  obtain ⟨shown, h1, h2⟩ := C92_displays penv format filter params.unit all nm hl.format hl.named
    (fun hc => ⟨(hl.csv hc).1, complete_clean hcr (fun x hx => hx.elim (functions_named f1 x) (functions_named f2 x))
      fun x hx => (hl.csv hc).2 _ ⟨x, hx, rfl⟩⟩) fun e he => (hfit e he).1
  exact ⟨all, shown, ⟨s2, s.log ++ G1 ++ globs repo ps ++ [.parse files1] ++ G2 ++ globs repo ps ++ [.parse files2]⟩,
    (C86_revisions b hash rx _ penv rest s _ shown).2 ⟨g, v, params, filter, format, old, new, repo, pattern, hw, hs, hdot, ps, G1, s1,
    files1, os, G2, s2, files2, ns, all, hps, c1, l1, p1, c2, l2, p2, hd, h1, rfl, rfl⟩, rfl, hcr, h2⟩

/-- C92: `subweight compare files …` prints the complete report on the functions in the files that are named. -/
theorem C92_files {W : World} (b : Build) (hash : HashOrder) (rx : RegexEngine) (cc : CharClass) (penv : PrintEnv) (rest : List Str) (s : Run W)
    {g : List Given} {v : Bool} {params : CompareParams} {filter : FilterParams} {format : FormatParams} {old new : List Path}
    (hw : Written filesArguments g rest) (hs : SaysFiles g v params filter format old new) {olds news : List Located}
    (f1 : FunctionsIn (W.fs s.state) params.ignoreErrors old olds) (f2 : FunctionsIn (W.fs s.state) params.ignoreErrors new news)
    (hrx : ∀ q, filter.pallet = some q ∨ filter.extrinsic = some q → rx.compile q ≠ none)
    (hsz : AllSized params.method params.unit olds news) {nm : Str → Str}
    (hl : Legible penv format nm fun p => ∃ x, (x ∈ olds ∨ x ∈ news) ∧ x.file = p) :
    ∃ all shown, cliMain b hash rx ⟨rustSyn, cc⟩ penv (str% "compare" :: str% "files" :: rest) s = (.ok (some (.inl shown)), s) ∧
      CompleteReport rx filter params.method params.unit olds news all ∧
      Displays penv.debugScope format filter params.unit nm all shown := by
  obtain ⟨os, p1, r1⟩ := Gen.functions_in (cc := cc) f1
  obtain ⟨ns, p2, r2⟩ := Gen.functions_in (cc := cc) f2
  obtain ⟨all, hd⟩ := Gen.report_exists (b := b) (hash := hash) (rx := rx) (filter := filter) r1 r2 hsz hrx
  have hcr := Gen.complete_of r1 r2 hsz hd
  have hfit := C90_reported (readFiles_fit p1) (readFiles_fit p2) hd
  obtain ⟨shown, h1, h2⟩ := C92_displays penv format filter params.unit all nm hl.format hl.named
    (fun hc => ⟨(hl.csv hc).1, complete_clean hcr (fun x hx => hx.elim (functions_named f1 x) (functions_named f2 x))
      fun x hx => (hl.csv hc).2 _ ⟨x, hx, rfl⟩⟩) fun e he => (hfit e he).1
  exact ⟨all, shown, (C86_file_lists b hash rx _ penv rest s s shown).2 ⟨rfl, g, v, params, filter, format, old, new, hw, hs, os, ns, all, p1, p2, hd, h1⟩,
    hcr, h2⟩

/-! ### The rows and the files -/

theorem costCell_of {d : Dimension} {f : Option GenFn} {t : Option SimpleTerm} {cell : Str} (h : EquationFor d f t) (hc : EquationCell t cell) :
    CostCell f d cell := by
  cases f with
  | none =>
    cases t with
    | none => exact hc
    | some t => exact h.elim
  | some f =>
    cases t with
    | none => exact h.elim
    | some t =>
      intro h0
      obtain ⟨ks, parts, u, h1, h2, hv, h3, h4⟩ := hc
      exact ⟨ks, parts, u, h1, h2, fun v hk => h.2.2 v (hv v hk), h3, fun rt => by rw [h4 (h.2.1 h0), h.1 rt]⟩

section

variable {rx : RegexEngine} {filter : FilterParams} {m : CompareMethod} {d : Dimension} {olds news : List Located} {all : List ExtrinsicDiff}

theorem kept_numbers {f : FilterParams} {e : ExtrinsicDiff} {r : TermChange} (hr : numbers e.change = some r) (p n : Str) :
    Kept f ⟨n, p, .changed r⟩ ↔ Kept f e := by
  unfold Kept
  have h1 : (∃ m, e.change = .failed m) ↔ False := by
    rw [show (∃ m, e.change = .failed m) ↔ Failed e from Iff.rfl, failed_iff, hr]
    simp
  have h2 : ∀ c, (e.change = .changed c ∨ ∃ m, e.change = .warning c m) ↔ c = r := by
    intro c
    unfold numbers at hr
    cases hc : e.change with
    | failed m => rw [hc] at hr; cases hr
    | changed c' => rw [hc] at hr; cases hr; simp [eq_comm]
    | warning c' m => rw [hc] at hr; cases hr; simp [eq_comm]
  simp only [h1, h2]
  simp [eq_comm]

/-- What the entries of a complete report say. -/
theorem entry_says (h : CompleteReport rx filter m d olds news all) {e : ExtrinsicDiff} (he : e ∈ all) :
    (Failed e ∧ Hopeless m olds news e.file e.name) ∨ ∃ r, numbers e.change = some r ∧ ¬ Hopeless m olds news e.file e.name ∧
      RightNumbers m d olds news e.file e.name r ∧ EquationFor d ((first olds e.file e.name).map (·.fn)) r.old ∧
      EquationFor d ((first news e.file e.name).map (·.fn)) r.new := by
  rcases h.2.2 e he with ⟨h1, msg, hm, _⟩ | ⟨h1, r, h2, h3, h4, h5, ⟨_, hm⟩ | ⟨_, _, _, _, hm, _⟩⟩
  · exact .inl ⟨⟨msg, hm⟩, h1⟩
  · exact .inr ⟨r, by rw [hm]; rfl, h1, ⟨h2, h3⟩, h4, h5⟩
  · exact .inr ⟨r, by rw [hm]; rfl, h1, ⟨h2, h3⟩, h4, h5⟩

theorem complete_nodup (h : CompleteReport rx filter m d olds news all) : (all.map fun e => (e.file, e.name)).Nodup := by
  refine h.1.imp fun {a b} hab => ?_
  rintro rfl
  rcases hab with hab | ⟨-, hab⟩
  · exact List.lt_irrefl _ hab
  · exact List.lt_irrefl _ hab

/-- The calls of the entries that are listed. -/
theorem calls_of (h : CompleteReport rx filter m d olds news all) {listed : List ExtrinsicDiff} {errors : Bool}
    (hp : ∀ e, e ∈ listed ↔ e ∈ all ∧ Kept filter e ∧ (errors = true ∨ ¬ Failed e)) (hn : (listed.map fun e => (e.file, e.name)).Nodup) :
    AllCalls rx filter m d olds news errors (listed.map fun e => (e.file, e.name)) := by
  refine ⟨hn, ?_, ?_⟩
  · intro c hc
    obtain ⟨e, he, rfl⟩ := List.mem_map.1 hc
    exact (h.2.1 e.file e.name).1 ⟨e, ((hp e).1 he).1, rfl, rfl⟩
  · intro x hx hsel
    obtain ⟨e, he, h1, h2⟩ := (h.2.1 x.file x.fn.name).2 ⟨⟨x, hx, rfl, rfl⟩, hsel⟩
    have hmem : (x.file, x.fn.name) ∈ listed.map (fun e => (e.file, e.name)) ↔ e ∈ listed := by
      constructor
      · intro hc
        obtain ⟨e', he', hee⟩ := List.mem_map.1 hc
        have : e' = e := List.inj_on_of_nodup_map (complete_nodup h) ((hp e').1 he').1 he (by rw [hee, h1, h2])
        exact this ▸ he'
      · intro hc
        exact List.mem_map.2 ⟨e, hc, by rw [h1, h2]⟩
    rw [hmem, hp e]
    have hs := entry_says h he
    rw [h1, h2] at hs
    rcases hs with ⟨k1, k2⟩ | ⟨r, k1, k2, k3, _⟩
    · refine ⟨fun _ => ?_, fun hno => absurd k2 hno⟩
      simp [he, k1, show Kept filter e from .inl k1]
    · refine ⟨fun hho => absurd hho k2, fun _ => ⟨r, k3, ?_⟩⟩
      rw [kept_numbers k1]
      have : ¬ Failed e := by rw [failed_iff, k1]; simp
      simp [he, this]

theorem arranged_mem {listed : List ExtrinsicDiff} (ha : Arranged filter all listed) (e : ExtrinsicDiff) :
    e ∈ listed ↔ e ∈ all ∧ Kept filter e := by
  obtain ⟨⟨kept, h1, h2⟩, -⟩ := ha
  rw [h2.mem_iff, List.mem_filter, h1]

theorem arranged_nodup (h : CompleteReport rx filter m d olds news all) {listed : List ExtrinsicDiff} (ha : Arranged filter all listed) :
    (listed.map fun e => (e.file, e.name)).Nodup := by
  obtain ⟨⟨kept, -, h2⟩, -⟩ := ha
  rw [(h2.map _).nodup_iff]
  exact (complete_nodup h).sublist (List.filter_sublist.map _)

/-- C92: the rows of a table of a complete report are the right rows of all calls that are to be shown, each once. -/
theorem C92_rows {scope : SimpleScope → Str} {f : FormatParams} {nm : Str → Str} {t : TableOut} (h : CompleteReport rx filter m d olds news all)
    (ht : TableOf scope f filter d nm all t) :
    ∃ calls, AllCalls rx filter m d olds news true calls ∧
      List.Forall₂ (fun c row => RightRow scope f filter nm m d olds news c.1 c.2 row) calls t.rows := by
  obtain ⟨listed, ha, hr⟩ := ht.rows
  have hmem := arranged_mem ha
  refine ⟨_, calls_of h (errors := true) (fun e => by rw [hmem]; simp) (arranged_nodup h ha), ?_⟩
  rw [List.forall₂_map_left_iff]
  refine forall₂_imp hr fun e he row hrow => ?_
  obtain ⟨hall, hk⟩ := (hmem e).1 he
  rcases entry_says h hall with ⟨k1, k2⟩ | ⟨r, k1, k2, k3, k4, k5⟩
  · rcases hrow with ⟨_, hrow⟩ | ⟨c, hc, _⟩
    · exact .inl ⟨k2, hrow⟩
    · rw [failed_iff.1 k1] at hc; cases hc
  · rcases hrow with ⟨hfa, _⟩ | ⟨c, hc, h1, h2⟩
    · rw [failed_iff.1 hfa] at k1; cases k1
    · rw [k1] at hc
      cases hc
      refine .inr ⟨k2, r, k3, (kept_numbers k1 _ _).2 hk, h1, ?_⟩
      unfold TermCells at h2
      split
      · rename_i hp
        rw [if_pos hp] at h2
        obtain ⟨o, n, j1, j2, j3⟩ := h2
        exact ⟨o, n, j1, costCell_of k4 j2, costCell_of k5 j3⟩
      · rename_i hp
        rw [if_neg hp] at h2
        exact h2

/-- C92: the lines of comma separated values of a complete report are the right lines of all calls that can be compared and are to be shown, each once. -/
theorem C92_lines {f : FormatParams} {text : Str} (h : CompleteReport rx filter m d olds news all) (ht : CsvOf f filter d all text) :
    ∃ calls lines, AllCalls rx filter m d olds news false calls ∧
      readCsv text = [str% "File", str% "Extrinsic", str% "Old", str% "New", str% "Change Percent"] :: lines ++ [[[]]] ∧
      List.Forall₂ (fun c line => ¬ Hopeless m olds news c.1 c.2 ∧ ∃ r, RightNumbers m d olds news c.1 c.2 r ∧
        Kept filter ⟨c.2, c.1, .changed r⟩ ∧ RowFor d f.noColor c.1 c.2 r line) calls lines := by
  obtain ⟨errs, listed, rows, ha, hf, h1, h2⟩ := ht
  have hmem := arranged_mem ha
  have hnot : ∀ e ∈ listed, ¬ Failed e := by
    intro e he hfa
    obtain ⟨row, -, c, hc, -⟩ := forall₂_mem_left h2 he
    rw [failed_iff.1 hfa] at hc
    cases hc
  have hl : ∀ e, e ∈ listed ↔ e ∈ all ∧ Kept filter e ∧ (false = true ∨ ¬ Failed e) := by
    intro e
    constructor
    · intro he
      obtain ⟨k1, k2⟩ := (hmem e).1 (List.mem_append_right _ he)
      exact ⟨k1, k2, .inr (hnot e he)⟩
    · rintro ⟨k1, k2, k3 | k3⟩
      · cases k3
      · rcases List.mem_append.1 ((hmem e).2 ⟨k1, k2⟩) with he | he
        · exact absurd (hf e he) k3
        · exact he
  have hnd := arranged_nodup h ha
  rw [List.map_append] at hnd
  refine ⟨_, rows, calls_of h (errors := false) hl hnd.of_append_right, h1, ?_⟩
  rw [List.forall₂_map_left_iff]
  refine forall₂_imp h2 fun e he row hrow => ?_
  obtain ⟨c, hc, hrow⟩ := hrow
  obtain ⟨k1, k2, -⟩ := (hl e).1 he
  rcases entry_says h k1 with ⟨j1, _⟩ | ⟨r, j1, j2, j3, _⟩
  · exact absurd j1 (hnot e he)
  · rw [hc] at j1
    cases j1
    exact ⟨j2, c, j3, (kept_numbers hc _ _).2 k2, hrow⟩

/-- C92: if nothing is printed then there is nothing to be shown. -/
theorem C92_nothing (h : CompleteReport rx filter m d olds news all) (hn : ∀ e ∈ all, ¬ Kept filter e) : AllCalls rx filter m d olds news true [] := by
  have := calls_of h (listed := []) (errors := true) (fun e => by simpa using fun he hk => hn e he hk) (by simp)
  exact this

end

/-! ### The same on the page -/

theorem joinStr_eq (sep : Str) (l : List Str) : joinStr sep l = sep.intercalate l := by
  induction l with
  | nil => rfl
  | cons a l ih =>
    cases l with
    | nil => simp [joinStr]
    | cons c l => simp only [joinStr, List.intercalate_cons_cons]; rw [ih]

theorem binding_key {s : SimpleScope} (h : (s.map (·.1)).Pairwise (· < ·)) {p : Str × SimpleTerm} (hp : p ∈ s) : binding s p.1 = some p.2 := by
  induction s with
  | nil => cases hp
  | cons q s ih =>
    rw [List.map_cons, List.pairwise_cons] at h
    rcases List.mem_cons.1 hp with rfl | hp'
    · obtain ⟨k, u⟩ := p
      simp [binding]
    · obtain ⟨k, u⟩ := q
      have hne : p.1 ≠ k := by
        rintro e
        exact List.lt_irrefl _ (e ▸ h.1 p.1 (List.mem_map_of_mem hp'))
      rw [binding, if_neg hne, ih h.2 hp']

theorem display_scalar (n : Nat) : Term.display Dimension.fmtScalar (.scalar n : SimpleTerm) = Dimension.fmtScalar n := by
  simp [Term.display, Term.fmtTokens, Term.maybeFmt, Term.renderTok]

theorem scopeText_of {old new : Option GenFn} {d : Dimension} {rt : Runtime} {s : SimpleScope} (h : ListsAt old new d rt s) :
    ScopeText (valuesAt old new d rt) (Scope.display (Term.display Dimension.fmtScalar) s) := by
  obtain ⟨h1, h2⟩ := h
  refine ⟨s.map (·.1), s.map fun p => p.1 ++ str% " = " ++ Term.display Dimension.fmtScalar p.2, h1, fun x => ?_, ?_, ?_⟩
  · rw [List.mem_map]
    constructor
    · rintro ⟨p, hp, rfl⟩
      have := ((h2 p.1 p.2).1 (binding_key h1 hp)).1
      simp [valuesAt, this]
    · intro hx
      have hx' : x = str% "READ" ∨ x = str% "WRITE" ∨ Param old new x := by
        by_contra hn
        simp [valuesAt, hn] at hx
      have := (h2 x _).2 ⟨hx', rfl⟩
      exact ⟨_, mem_of_binding this, rfl⟩
  · rw [List.forall₂_map_left_iff, List.forall₂_map_right_iff]
    refine List.forall₂_same.2 fun p hp => ?_
    obtain ⟨k1, k2⟩ := (h2 p.1 p.2).1 (binding_key h1 hp)
    refine ⟨_, _, by simp [valuesAt, k1], C13_fmt_scalar (rt.env d p.1), ?_⟩
    rw [k2, display_scalar]
  · rw [Scope.display, joinStr_eq]

theorem reported_at {m : CompareMethod} {old new : Option GenFn} {d : Dimension} {r : TermChange} (h : Reported m old new d r) :
    ∃ rt, ReportsAt old new d rt r := by
  unfold Reported at h
  cases m with
  | asymptotic => exact ⟨_, h⟩
  | exactAsymptotic => exact ⟨_, h⟩
  | base => exact ⟨_, h⟩
  | guessWorst =>
    cases old with
    | none => exact ⟨_, h⟩
    | some f =>
      cases new with
      | none => exact ⟨_, h⟩
      | some g => obtain ⟨-, rt, -, h⟩ := h; exact ⟨rt, h⟩
  | exactWorst =>
    cases old with
    | none => exact ⟨_, h⟩
    | some f =>
      cases new with
      | none => exact ⟨_, h⟩
      | some g => obtain ⟨-, rt, -, h⟩ := h; exact ⟨rt, h⟩

theorem costCell_shown {org repo rev file name : Str} {d : Dimension} {f : Option GenFn} {t : Option SimpleTerm} {cell : Cell} (h : EquationFor d f t)
    (hc : ShownEquation org repo rev file name t cell) : ∃ text, CostCell f d text ∧ strip cell.text = strip text := by
  cases t with
  | none => exact ⟨str% "-", costCell_of h (show EquationCell none _ from rfl), hc.1⟩
  | some t => exact ⟨_, costCell_of h (show EquationCell (some t) _ from equationText_display t), hc.1⟩

/-- C92: in each row of the page of a report the last three cells show the equations of the costs of both versions, and parameters for which they cost what the
row says. -/
theorem C92_page {rx : RegexEngine} {a : CompareArgs} {org : Str} {olds news : List Located} {all diff : List ExtrinsicDiff} {page : Str}
    (h : ShowsReport rx a org olds news all diff page) :
    ∀ row ∈ tableRows (tokens page) (str% "sort_me"), ∃ p e c0 c1 c2 c3 c4 c5 c6 c7 c8 old new scope rt,
      row.2 = [c0, c1, c2, c3, c4, c5, c6, c7, c8] ∧ strip c0.text = strip p ∧ strip c1.text = strip e ∧
      (∃ x, (x ∈ olds ∨ x ∈ news) ∧ x.file = p ∧ x.fn.name = e) ∧
      ShownWeight a.unit ((first olds p e).map (·.fn.cost rt a.unit)) (strip c2.text) ∧
      ShownWeight a.unit ((first news p e).map (·.fn.cost rt a.unit)) (strip c3.text) ∧
      strip c6.text = strip old ∧ CostCell ((first olds p e).map (·.fn)) a.unit old ∧
      strip c7.text = strip new ∧ CostCell ((first news p e).map (·.fn)) a.unit new ∧
      strip c8.text = strip scope ∧ ScopeText (valuesAt ((first olds p e).map (·.fn)) ((first news p e).map (·.fn)) a.unit rt) scope := by
  intro row hrow
  obtain ⟨e, r, c0, c1, c2, c3, c4, c5, c6, c7, c8, h1, h2, h3, -, -, -, h4, -, h5, h6⟩ := C87_rows h row hrow
  obtain ⟨rt, k1, k2, -, k3⟩ := reported_at h4
  obtain ⟨old, j1, j2⟩ := costCell_shown h5 h2.oldTerm
  obtain ⟨new, j3, j4⟩ := costCell_shown h6 h2.newTerm
  refine ⟨e.file, e.name, c0, c1, c2, c3, c4, c5, c6, c7, c8, old, new, _, rt, h1, h2.file, h2.name, h3, ?_, ?_, j2, j1, j4, j3, h2.scope, scopeText_of k3⟩
  · have := h2.old
    rw [k1, Option.map_map] at this
    exact this
  · have := h2.new
    rw [k2, Option.map_map] at this
    exact this

/-! ### The tool always ends, and does not crash on generated files -/

section

variable {α β : Type}

/-- The outcome that is to be avoided. -/
def Avoids (panic : Bool) (r : Res α) : Prop := if panic then r ≠ .panic else r ≠ .diverge

variable {k : Bool}

theorem avoids_ok (a : α) : Avoids k (.ok a) := by cases k <;> exact fun h => nomatch h

theorem avoids_err (m : Str) : Avoids k (.err m : Res α) := by cases k <;> exact fun h => nomatch h

theorem avoids_bind {x : Res α} {f : α → Res β} (hx : Avoids k x) (hf : ∀ a, x = .ok a → Avoids k (f a)) : Avoids k (x >>= f) := by
  cases x with
  | ok a => exact hf a rfl
  | err m => exact avoids_err m
  | panic => cases k with
    | true => exact absurd rfl hx
    | false => exact fun h => nomatch h
  | diverge => cases k with
    | true => exact fun h => nomatch h
    | false => exact absurd rfl hx

theorem avoids_act {W : World} {x : Act W α} {f : α → Act W β} {s : Run W} (hx : Avoids k (x s).1) (hf : ∀ a s', Avoids k (f a s').1) :
    Avoids k ((x >>= f) s).1 := by
  show Avoids k (Act.andThen x f s).1
  unfold Act.andThen
  generalize x s = out at hx
  obtain ⟨r, s'⟩ := out
  cases r with
  | ok a => exact hf a s'
  | err m => exact avoids_err _
  | panic => cases k with
    | true => exact absurd rfl hx
    | false => exact fun h => nomatch h
  | diverge => cases k with
    | true => exact fun h => nomatch h
    | false => exact absurd rfl hx

theorem avoids_map {x : Res α} {f : α → β} (hx : Avoids k x) : Avoids k (x.map f) := by
  cases x <;> cases k <;> first | exact hx.elim rfl | exact fun h => nomatch h

theorem avoids_mapM {f : α → Res β} {l : List α} (h : ∀ a ∈ l, Avoids k (f a)) : Avoids k (l.mapM f) := by
  induction l with
  | nil => exact avoids_ok _
  | cons a l ih =>
    rw [List.mapM_cons]
    exact avoids_bind (h a (by simp)) fun _ _ => avoids_bind (ih fun x hx => h x (List.mem_cons_of_mem _ hx)) fun _ _ => avoids_ok _

theorem avoids_parseAll {f : Path → Res (List ChromaticExtrinsic)} (h : ∀ p, Avoids k (f p)) (l : List Path) : Avoids k (parseAll f l) := by
  induction l with
  | nil => exact avoids_ok _
  | cons p l ih => exact avoids_bind (h p) fun _ _ => avoids_bind ih fun _ _ => avoids_ok _

theorem avoids_tryParseAll {f : Path → Res (List ChromaticExtrinsic)} (h : ∀ p, Avoids k (f p)) (l : List Path) : Avoids k (tryParseAll f l) := by
  induction l with
  | nil => exact avoids_ok _
  | cons p l ih =>
    rw [tryParseAll]
    have := h p
    split
    · exact avoids_bind (avoids_ok _) fun _ _ => avoids_bind ih fun _ _ => avoids_ok _
    · exact avoids_bind this fun _ _ => avoids_bind ih fun _ _ => avoids_ok _

/-- The pattern of `--strip-path-prefix` does its work. -/
def StripFine (k : Bool) (penv : PrintEnv) (f : FormatParams) : Prop := ∀ path, Avoids k (filterPath penv f path)

theorem avoids_show {penv : PrintEnv} {f : FormatParams} (h : StripFine k penv f) (filter : FilterParams) (unit : Dimension) (diff : List ExtrinsicDiff) :
    Avoids k (showDiff penv f filter unit diff) := by
  unfold showDiff printChanges
  have table : ∀ l, Avoids k (printChangesHuman penv l f unit) := by
    intro l
    unfold printChangesHuman
    split
    · exact avoids_ok _
    · refine avoids_bind (avoids_mapM fun e _ => avoids_bind (h _) fun _ _ => avoids_ok _) fun _ _ =>
        avoids_bind (avoids_mapM fun e _ => avoids_bind (h _) fun _ _ => avoids_ok _) fun _ _ => avoids_ok _
  cases f.format with
  | human => exact avoids_bind (table _) fun _ _ => avoids_ok _
  | markdown => exact avoids_bind (table _) fun _ _ => avoids_ok _
  | csv => exact avoids_ok _
  | briefHuman => exact avoids_err _
  | json => exact avoids_err _

theorem avoids_parseFile {env : Env} {fs : Fs} {p : Path} (h : k = true → ∀ c, fs p = .ok c → Harmless env.syn c ∧ ∃ dir name, p = dir ++ [.normal name]) :
    Avoids k (parseFile env fs p) := by
  unfold parseFile readFile
  cases hf : fs p with
  | error e => exact avoids_err _
  | ok c =>
    show Avoids k (PathStripping.fileName.strip [.cur] p >>= fun name => withFile p (parseContent env.syn env.cc name c))
    refine avoids_bind ?_ fun name _ => ?_
    · cases k with
      | true =>
        obtain ⟨-, dir, name, hd⟩ := h rfl c hf
        rw [((C53_file_name [.cur] p).1 name).2 ⟨dir, hd⟩]
        exact avoids_ok _
      | false =>
        show PathStripping.fileName.strip [.cur] p ≠ .diverge
        show Res.unwrap p.fileName ≠ .diverge
        cases p.fileName <;> exact fun h => nomatch h
    · have : Avoids k (parseContent env.syn env.cc name c) := by
        cases k with
        | true => exact parseContent_calm env.cc name (h rfl c hf).1
        | false => exact parseContent_halts _ _ _ _
      generalize parseContent env.syn env.cc name c = r at this
      cases r with
      | err m => exact avoids_err _
      | _ => exact this

theorem avoids_compare {b : Build} (hb : k = true → b = .release) (ho : HashOrder) (rx : RegexEngine) (olds news : List ChromaticExtrinsic)
    (params : CompareParams) (filter : FilterParams) : Avoids k (compareFiles b ho rx olds news params filter) := by
  cases k with
  | true =>
    rw [hb rfl]
    rcases C32_total ho rx olds news params filter with ⟨d, h⟩ | ⟨⟨m, h⟩, -⟩ <;> rw [h] <;> exact fun h => nomatch h
  | false => exact compareFiles_halts _ _ _ _ _ _ _

theorem ends_run {W : World} {p : Prog α} (h : Prog.Ends p) (s : W.State) : (p.run W s).1 ≠ .diverge := by
  induction h generalizing s with
  | done h => exact h
  | git _ ih => exact ih _ _
  | glob _ ih => exact ih _ _
  | read _ ih => exact ih _ _

theorem avoids_commits {W : World} {b : Build} {env : Env} (hb : k = true → b = .release ∧ ∀ s p c, W.fs s p = .ok c → Harmless env.syn c)
    (ho : HashOrder) (rx : RegexEngine) (repo : Path) (old new : Str) (params : CompareParams) (filter : FilterParams) (pattern : Str)
    (maxFiles : Nat) (s : Run W) : Avoids k (compareCommits b ho rx env repo old new params filter pattern maxFiles s).1 := by
  have hr := refines_compareCommits b ho rx env repo old new params filter pattern maxFiles s
  cases k with
  | true =>
    have := (endsWell_run (endsWell_commits (calm := True) (fun _ => hb rfl) ho rx repo old new params filter pattern maxFiles) s.state).1 trivial
    rw [hr] at this
    exact this
  | false =>
    have := ends_run (compareCommitsP_ends b ho rx env repo old new params filter pattern maxFiles) s.state
    rw [hr] at this
    exact this

theorem avoids_main {W : World} {b : Build} {env : Env} {penv : PrintEnv} {args : List Str} (ho : HashOrder) (rx : RegexEngine) (s : Run W)
    (hb : k = true → b = .release ∧ ∀ s p c, W.fs s p = .ok c → Harmless env.syn c ∧ ∃ dir name, p = dir ++ [.normal name])
    (hs : ∀ v cmd p, readCommandLine b args = some (v, cmd) → Strips cmd p → match penv.strip p with
      | some g => ∀ path, Avoids k (g path)
      | none => k = false) : Avoids k (cliMain b ho rx env penv args s).1 := by
  have hstrip : ∀ v cmd, readCommandLine b args = some (v, cmd) → ∀ f : FormatParams, (∀ p, f.stripPathPrefix = some p → Strips cmd p) → StripFine k penv f := by
    intro v cmd hc f hf path
    unfold filterPath
    cases hp : f.stripPathPrefix with
    | none => exact avoids_ok _
    | some p =>
      have := hs v cmd p hc (hf p hp)
      dsimp only
      cases hg : penv.strip p with
      | none =>
        rw [hg] at this
        rw [this]
        exact fun h => nomatch h
      | some g => rw [hg] at this; exact this path
  have hread : ∀ (l : List Path), Avoids k (tryParseFiles env (W.fs s.state) l) ∧ Avoids k (parseFiles env (W.fs s.state) l) := fun l =>
    ⟨avoids_tryParseAll (fun p => avoids_parseFile fun hk c hc => (hb hk).2 _ _ _ hc) l,
      avoids_parseAll (fun p => avoids_parseFile fun hk c hc => (hb hk).2 _ _ _ hc) l⟩
  unfold cliMain
  cases hc : readCommandLine b args with
  | none => exact avoids_ok _
  | some vc =>
    obtain ⟨v, cmd⟩ := vc
    have key : Avoids k (cmd.run b ho rx env penv s).1 := by
      cases cmd with
      | compareFiles params filter f old new =>
        refine avoids_map ?_
        rw [cliCompareFiles_eq]
        refine avoids_bind ?_ fun olds _ => avoids_bind ?_ fun news _ => avoids_bind (avoids_compare (fun hk => (hb hk).1) _ _ _ _ _ _) fun diff _ =>
          avoids_show (hstrip _ _ hc f fun p hp => hp) _ _ _
        · split
          · exact (hread _).1
          · exact (hread _).2
        · split
          · exact (hread _).1
          · exact (hread _).2
      | parseFiles files => exact avoids_map (avoids_bind (hread _).2 fun _ _ => avoids_ok _)
      | compareCommits params filter f old new repo pattern =>
        have h1 := avoids_commits (k := k) (fun hk => ⟨(hb hk).1, fun s p c h => ((hb hk).2 s p c h).1⟩) ho rx repo old new params filter pattern usizeMax s
        have h2 := avoids_show (k := k) (hstrip _ _ hc f fun p hp => hp) filter params.unit
        exact avoids_act (avoids_act h1 fun diff _ => h2 diff) fun _ _ => avoids_ok _
    exact avoids_act key fun _ _ => avoids_ok _

end

/-- C92: whatever the arguments, the files and git do, the tool ends (unless the regex engine does not). -/
theorem C92_ends {W : World} (b : Build) (ho : HashOrder) (rx : RegexEngine) (env : Env) (penv : PrintEnv) (args : List Str) (s : Run W)
    (h : ∀ p g path, penv.strip p = some g → g path ≠ .diverge) : (cliMain b ho rx env penv args s).1 ≠ .diverge := by
  refine avoids_main (k := false) ho rx s (fun h => nomatch h) fun v cmd p _ _ => ?_
  cases hg : penv.strip p with
  | none => rfl
  | some g => exact fun path => h p g path hg

/-- C92: built for release the tool does not crash whatever its arguments are and git does, if the files are harmless and have names, and the
pattern of `--strip-path-prefix`, if any, is a regular expression that can be evaluated. -/
theorem C92_safe {W : World} (ho : HashOrder) (rx : RegexEngine) (env : Env) (penv : PrintEnv) (args : List Str) (s : Run W)
    (hf : ∀ s p c, W.fs s p = .ok c → Harmless env.syn c ∧ ∃ dir name, p = dir ++ [.normal name])
    (hp : ∀ v cmd p, readCommandLine .release args = some (v, cmd) → Strips cmd p → ∃ g, penv.strip p = some g ∧ ∀ path, g path ≠ .panic) :
    (cliMain .release ho rx env penv args s).1 ≠ .panic := by
  refine avoids_main (k := true) ho rx s (fun _ => ⟨rfl, hf⟩) fun v cmd p h1 h2 => ?_
  obtain ⟨g, hg, h⟩ := hp v cmd p h1 h2
  rw [hg]
  exact h

/-- C92, against the text: without the condition on zero factors equations are not right.  A function that is generated with `reads(0)` times a parameter is shown as if
it had one read. -/
theorem C92_false_counts : ∃ f : GenFn, f.Ok .parts ∧ (∀ rt : Runtime, f.cost rt .time = 5) ∧
    ∀ file e, Gen.Read ⟨file, .parts, f⟩ e → termCell (termOf .time (some (inDim .time e))) = str% "5 + READ" := by
  refine ⟨⟨str% "f", [], 5, 0, [.readsPer 0 (str% "n")]⟩, ?_, ?_, ?_⟩
  · refine ⟨⟨⟨'f', _, rfl, by decide, by unfold WordChar; decide⟩, by decide⟩, fun _ h => (nomatch h), (by decide), (by decide), ?_, fun h => absurd rfl h⟩
    intro s hs
    rw [List.mem_singleton.1 hs]
    refine ⟨fun c hc => ?_, by decide⟩
    rw [List.mem_singleton.1 hc]
    exact ⟨⟨⟨'n', _, rfl, by decide, by unfold WordChar; decide⟩, by decide⟩, by decide, by decide⟩
  · intro rt
    simp [GenFn.cost, Summand.cost]
  · rintro file e h
    have ht : (inDim .time e).term = project .time (Gen.bodyT .parts ⟨str% "f", [], 5, 0, [.readsPer 0 (str% "n")]⟩) := by
      rw [← h.2.2.2]; rfl
    unfold termOf
    simp only [Option.map_some, ht]
    decide +kernel

/-! ### Examples -/

/-- A line that asks for the equations too. -/
def exTermsLine : List Str :=
  [str% "-m", str% "guess-worst", str% "v1", str% "v2", str% "--repo", str% "r", str% "--path-pattern=*", str% "--threshold", str% "0", str% "--no-color",
    str% "--print-terms", str% "--change", str% "changed"]

-- What it shows.
example : (match (cliMain (W := exGenWorld) .release idOrder exRegex ⟨rustSyn, asciiClass⟩ exPrintEnv (str% "compare" :: str% "commits" :: exTermsLine)
      ⟨str% "start", []⟩).1 with
    | .ok (some (.inl (.table t _))) => some t.rows
    | _ => none) = some [
      [str% "w.rs", str% "transfer", str% "207.04ms", str% "209.04ms", str% "+0.97", str% "12.35M + 7.00M * n + READ + 2 * n * WRITE",
        str% "12.35M + 9.00M * n + READ + 2 * n * WRITE", str% "{}"],
      [str% "a.rs", str% "transfer", str% "207.04ms", str% "209.04ms", str% "+0.97", str% "12.35M + 7.00M * n + READ + 2 * n * WRITE",
        str% "12.35M + 9.00M * n + READ + 2 * n * WRITE", str% "{}"]] := by decide +kernel

theorem exTerms_read : readCommandLine .release (str% "compare" :: str% "commits" :: exTermsLine) = some (false, .compareCommits
    ⟨.guessWorst, .time, false, false, false, false⟩ ⟨.fin 0, some [.changed], none, none⟩ ⟨.human, true, true, none⟩ (str% "v1") (str% "v2")
    [.normal (str% "r")] (str% "*")) := by
  have h : readF64 (str% "0") = some (.fin 0) := by decide +kernel
  have e : readCommandLine .release (str% "compare" :: str% "commits" :: exTermsLine) = ((readF64 (str% "0")).bind fun x => some (false,
      .compareCommits ⟨.guessWorst, .time, false, false, false, false⟩ ⟨x, some [.changed], none, none⟩ ⟨.human, true, true, none⟩ (str% "v1") (str% "v2")
        [.normal (str% "r")] (str% "*"))) := rfl
  rw [e, h]
  rfl

/-- All hypotheses of `C92_commits` are met. -/
theorem exTerms_printed : ∃ all shown s', cliMain (W := exGenWorld) .release idOrder exRegex ⟨rustSyn, asciiClass⟩ exPrintEnv
      (str% "compare" :: str% "commits" :: exTermsLine) ⟨str% "start", []⟩ = (.ok (some (.inl shown)), s') ∧ s'.state = str% "v2" ∧
    CompleteReport exRegex ⟨.fin 0, some [.changed], none, none⟩ .guessWorst .time (exLocated 7000000) (exLocated 9000000) all ∧
    Displays exPrintEnv.debugScope ⟨.human, true, true, none⟩ ⟨.fin 0, some [.changed], none, none⟩ .time id all shown := by
  obtain ⟨v1, v2, v3, rest, g, h1, h2, hw, hs⟩ := (C86_commits ..).1 exTerms_read
  have : rest = exTermsLine := by
    cases v1 with
    | true => cases h2
    | false => cases v2 with
      | true => cases h2
      | false => cases h1; rfl
  subst this
  exact C92_commits (W := exGenWorld) .release idOrder exRegex asciiClass exPrintEnv _ ⟨str% "start", []⟩ hw hs (by rw [← hasDotDot_iff]; decide)
    (exGen_checked _).1 (((C38_listed (W := exGenWorld) [.normal (str% "r")] (str% "*") (2 ^ 64 - 1) ⟨_, []⟩ _ exGenFiles).1 rfl).1)
    (exGen_functions _).1 (exGen_checked _).2
    (((C38_listed (W := exGenWorld) [.normal (str% "r")] (str% "*") (2 ^ 64 - 1) ⟨_, []⟩ _ exGenFiles).1 rfl).1) (exGen_functions _).2
    (by rintro q (h | h) <;> cases h) (exGen_sized _ _) ⟨.inl rfl, fun _ => filters_none _ _ rfl, fun h => nomatch h⟩

/-- The rows of the table in the example are right. -/
example : ∃ t md calls, AllCalls exRegex ⟨.fin 0, some [.changed], none, none⟩ .guessWorst .time (exLocated 7000000) (exLocated 9000000) true calls ∧
    t.rows.length = 2 ∧ (cliMain (W := exGenWorld) .release idOrder exRegex ⟨rustSyn, asciiClass⟩ exPrintEnv (str% "compare" :: str% "commits" :: exTermsLine)
      ⟨str% "start", []⟩).1 = .ok (some (.inl (.table t md))) ∧
    List.Forall₂ (fun c row => RightRow exPrintEnv.debugScope ⟨.human, true, true, none⟩ ⟨.fin 0, some [.changed], none, none⟩ id .guessWorst .time
      (exLocated 7000000) (exLocated 9000000) c.1 c.2 row) calls t.rows := by
  obtain ⟨all, shown, s', h1, -, h2, h3⟩ := exTerms_printed
  have key : (match (cliMain (W := exGenWorld) .release idOrder exRegex ⟨rustSyn, asciiClass⟩ exPrintEnv (str% "compare" :: str% "commits" :: exTermsLine)
      ⟨str% "start", []⟩).1 with
    | .ok (some (.inl (.table t _))) => t.rows.length
    | _ => 0) = 2 := by decide +kernel
  rw [h1] at key ⊢
  cases h3 with
  | nothing => simp at key
  | csv hf => cases hf
  | table hf he hk ht =>
    obtain ⟨calls, k1, k2⟩ := C92_rows h2 ht
    exact ⟨_, _, calls, k1, key, rfl, k2⟩

/-- The files of the example, but only where there can be a file. -/
def exNamedWorld : World := { exGenWorld with fs := fun (s : Str) p => if p.fileName = none then .error (str% "Is a directory") else exGenWorld.fs s p }

-- The hypotheses of `C92_safe` are met, for all arguments without that option.
example (args : List Str) (h : ∀ v cmd p, readCommandLine .release args = some (v, cmd) → ¬ Strips cmd p) :
    (cliMain (W := exNamedWorld) .release idOrder exRegex ⟨rustSyn, asciiClass⟩ exPrintEnv args ⟨str% "start", []⟩).1 ≠ .panic := by
  refine C92_safe _ _ _ _ _ _ (fun s p c hc => ?_) fun v cmd p h1 h2 => absurd h2 (h v cmd p h1)
  simp only [exNamedWorld] at hc
  split at hc
  · cases hc
  · rename_i hn
    refine ⟨exSite_peaceful.files s p c hc, ?_⟩
    obtain ⟨name, hname⟩ := Option.ne_none_iff_exists'.1 hn
    obtain ⟨dir, hd⟩ := ((C53_file_name [.cur] p).1 name).1 (by show Res.unwrap p.fileName = _; rw [hname]; rfl)
    exact ⟨dir, name, hd⟩

-- A pattern that is no regular expression crashes the tool.
example : (cliMain (W := exGenWorld) .release idOrder exRegex ⟨rustSyn, asciiClass⟩ exPrintEnv
    (str% "compare" :: str% "commits" :: exTermsLine ++ [str% "--strip-path-prefix", str% "("]) ⟨str% "start", []⟩).1 = .panic := by decide +kernel

-- A page for `C92_page`: both equations of each row can be read.
example : ∃ page, ∀ row ∈ tableRows (tokens page) (str% "sort_me"), ∃ f g c6 c7 old new, row.2[6]? = some c6 ∧ row.2[7]? = some c7 ∧
    strip c6.text = strip old ∧ CostCell f .time old ∧ strip c7.text = strip new ∧ CostCell g .time new := by
  obtain ⟨c, all, diff, page, -, -, -, h⟩ := C87_example
  refine ⟨page, fun row hrow => ?_⟩
  obtain ⟨p, e, c0, c1, c2, c3, c4, c5, c6, c7, c8, old, new, scope, rt, h1, -, -, -, -, -, h2, h3, h4, h5, -⟩ := C92_page h row hrow
  exact ⟨_, _, c6, c7, old, new, by rw [h1]; rfl, by rw [h1]; rfl, h2, h3, h4, h5⟩

end Swc
