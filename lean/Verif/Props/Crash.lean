/-
C106, continued: exactly when the tool crashes, and exactly how it ends.
-/
import Verif.Spec.Crash
import Verif.Props.Ending

namespace Swc

open Spec

/-! ### Reading -/

theorem parseAll_panic_iff (f : Path → Res (List ChromaticExtrinsic)) (l : List Path) :
    parseAll f l = .panic ↔ ∃ pre p post, l = pre ++ p :: post ∧ f p = .panic ∧ ∀ q ∈ pre, ∃ x, f q = .ok x := by
  induction l with
  | nil => simp [parseAll]
  | cons a l ih =>
    rw [parseAll, bind_eq_panic]
    constructor
    · rintro (h | ⟨x, h1, h2⟩)
      · exact ⟨[], a, l, rfl, h, by simp⟩
      · rcases bind_eq_panic.1 h2 with h3 | ⟨_, -, h3⟩
        · obtain ⟨pre, p, post, k1, k2, k3⟩ := ih.1 h3
          refine ⟨a :: pre, p, post, by rw [k1]; rfl, k2, fun q hq => ?_⟩
          rcases List.mem_cons.1 hq with rfl | hq
          · exact ⟨x, h1⟩
          · exact k3 q hq
        · cases h3
    · rintro ⟨pre, p, post, h, k2, k3⟩
      cases pre with
      | nil => cases h; exact .inl k2
      | cons c pre =>
        obtain ⟨rfl, h'⟩ : a = c ∧ l = pre ++ p :: post := by simpa using h
        obtain ⟨y, hy⟩ := k3 a (by simp)
        refine .inr ⟨y, hy, ?_⟩
        rw [ih.2 ⟨pre, p, post, h', k2, fun q hq => k3 q (List.mem_cons_of_mem _ hq)⟩]
        rfl

theorem tryParseAll_panic (f : Path → Res (List ChromaticExtrinsic)) (hf : ∀ p, f p ≠ .diverge) (l : List Path) :
    tryParseAll f l = .panic ↔ ∃ p ∈ l, f p = .panic := by
  induction l with
  | nil => simp [tryParseAll]
  | cons a l ih =>
    rw [tryParseAll]
    simp only [List.mem_cons, exists_eq_or_imp, ← ih]
    generalize tryParseAll f l = r
    cases h : f a with
    | ok x => cases r <;> simp
    | err m => cases r <;> simp
    | panic => simp
    | diverge => exact absurd h (hf a)

theorem parseFile_ends (env : Env) (fs : Fs) (p : Path) : parseFile env fs p ≠ .diverge :=
  avoids_parseFile (k := false) fun h => nomatch h

theorem readOr_panic (env : Env) (fs : Fs) (ign : Bool) (l : List Path) :
    (if ign then tryParseFiles env fs l else parseFiles env fs l) = .panic ↔ FilesCrash env fs ign l := by
  unfold FilesCrash CrashingFile tryParseFiles parseFiles
  simp only [← parseFile_panic, ← parseFile_ok]
  cases ign with
  | true =>
    rw [if_pos rfl, tryParseAll_panic _ (parseFile_ends env fs)]
    constructor
    · rintro ⟨p, hp, h⟩
      obtain ⟨a, c, rfl⟩ := List.append_of_mem hp
      exact ⟨a, p, c, rfl, h, fun h => nomatch h⟩
    · rintro ⟨a, p, c, rfl, h, -⟩; exact ⟨p, by simp, h⟩
  | false =>
    rw [if_neg (by decide), parseAll_panic_iff]
    simp

/-! ### Printing -/

/-- Removing a prefix from a path ends with a path or a panic. -/
def StripSane (penv : PrintEnv) : Prop := ∀ p g path, penv.strip p = some g → (∀ m, g path ≠ .err m) ∧ g path ≠ .diverge

theorem stripSane_noErr {penv : PrintEnv} (h : StripSane penv) : StripNoErr penv := fun p g path m hg => (h p g path hg).1 m

theorem filterPath_cases {penv : PrintEnv} (h : StripSane penv) (f : FormatParams) (path : Str) :
    (∃ s, filterPath penv f path = .ok s ∧ ¬ CannotStrip penv f path) ∨ filterPath penv f path = .panic ∧ CannotStrip penv f path := by
  unfold filterPath CannotStrip
  cases hp : f.stripPathPrefix with
  | none => exact .inl ⟨path, rfl, by rintro ⟨p, h, -⟩; cases h⟩
  | some p =>
    dsimp only
    cases hg : penv.strip p with
    | none => exact .inr ⟨rfl, p, rfl, .inl hg⟩
    | some g =>
      dsimp only
      cases hr : g path with
      | ok s =>
        refine .inl ⟨s, rfl, ?_⟩
        rintro ⟨p', h1, h2⟩
        cases h1
        rw [hg] at h2
        rcases h2 with h2 | ⟨g', h2, h3⟩
        · cases h2
        · cases h2; rw [hr] at h3; cases h3
      | err m => exact absurd hr ((h p g path hg).1 m)
      | panic => exact .inr ⟨rfl, p, rfl, .inr ⟨g, hg, hr⟩⟩
      | diverge => exact absurd hr (h p g path hg).2

theorem mapM_outcome {α β : Type} {f : α → Res β} {P : α → Prop} (h : ∀ a, (∃ b, f a = .ok b ∧ ¬ P a) ∨ f a = .panic ∧ P a) (l : List α) :
    (∃ bs, l.mapM f = .ok bs ∧ ∀ a ∈ l, ¬ P a) ∨ l.mapM f = .panic ∧ ∃ a ∈ l, P a := by
  induction l with
  | nil => exact .inl ⟨[], rfl, by simp⟩
  | cons a l ih =>
    rw [List.mapM_cons]
    rcases h a with ⟨b, h1, h2⟩ | ⟨h1, h2⟩
    · rw [h1, Res.bind_ok]
      rcases ih with ⟨bs, h3, h4⟩ | ⟨h3, a', h4, h5⟩
      · rw [h3]
        refine .inl ⟨b :: bs, rfl, fun x hx => ?_⟩
        rcases List.mem_cons.1 hx with rfl | hx
        · exact h2
        · exact h4 x hx
      · rw [h3]
        exact .inr ⟨rfl, a', List.mem_cons_of_mem _ h4, h5⟩
    · rw [h1]
      exact .inr ⟨rfl, a, by simp, h2⟩

theorem table_outcome {penv : PrintEnv} (h : StripSane penv) (f : FormatParams) (unit : Dimension) (diff : List ExtrinsicDiff) :
    (∃ t, printChangesHuman penv diff f unit = .ok t ∧ ∀ e ∈ diff, ¬ CannotStrip penv f e.file) ∨
      printChangesHuman penv diff f unit = .panic ∧ ∃ e ∈ diff, CannotStrip penv f e.file := by
  unfold printChangesHuman
  cases diff with
  | nil => exact .inl ⟨none, rfl, by simp⟩
  | cons d l =>
    rw [if_neg (by simp)]
    generalize d :: l = diff
    have he : ∀ e : ExtrinsicDiff, (∃ b, errorRow penv f e = .ok b ∧ ¬ CannotStrip penv f e.file) ∨ errorRow penv f e = .panic ∧ CannotStrip penv f e.file := by
      intro e
      unfold errorRow
      rcases filterPath_cases h f e.file with ⟨s, h1, h2⟩ | ⟨h1, h2⟩
      · exact .inl ⟨_, by rw [h1]; rfl, h2⟩
      · exact .inr ⟨by rw [h1]; rfl, h2⟩
    have hc : ∀ p : ExtrinsicDiff × TermChange, (∃ b, changeRow penv f unit p.1 p.2 = .ok b ∧ ¬ CannotStrip penv f p.1.file) ∨
        changeRow penv f unit p.1 p.2 = .panic ∧ CannotStrip penv f p.1.file := by
      intro p
      unfold changeRow
      rcases filterPath_cases h f p.1.file with ⟨s, h1, h2⟩ | ⟨h1, h2⟩
      · exact .inl ⟨_, by rw [h1]; rfl, h2⟩
      · exact .inr ⟨by rw [h1]; rfl, h2⟩
    have hm : ∀ e : ExtrinsicDiff, e.error.isSome ∨ ∃ t, e.term = some t := by
      intro e
      unfold ExtrinsicDiff.error ExtrinsicDiff.term
      cases e.change <;> simp
    rcases mapM_outcome he (diff.filter fun e => e.error.isSome) with ⟨bs, h1, h2⟩ | ⟨h1, a, h2, h3⟩
    · rw [h1, Res.bind_ok]
      rcases mapM_outcome hc (termRows diff) with ⟨cs, h3, h4⟩ | ⟨h3, p, h4, h5⟩
      · rw [h3, Res.bind_ok]
        refine .inl ⟨_, rfl, fun e hmem => ?_⟩
        rcases hm e with h' | ⟨t, h'⟩
        · exact h2 e (List.mem_filter.2 ⟨hmem, h'⟩)
        · exact h4 (e, t) (List.mem_filterMap.2 ⟨e, hmem, by rw [h']; rfl⟩)
      · rw [h3]
        obtain ⟨e, k1, k2⟩ := List.mem_filterMap.1 h4
        refine .inr ⟨rfl, e, k1, ?_⟩
        cases ht : e.term with
        | none => rw [ht] at k2; cases k2
        | some t => rw [ht] at k2; cases k2; exact h5
    · rw [h1]
      exact .inr ⟨rfl, a, (List.mem_filter.1 h2).1, h3⟩

theorem show_panic {penv : PrintEnv} (h : StripSane penv) (f : FormatParams) (filter : FilterParams) (unit : Dimension) (diff : List ExtrinsicDiff) :
    showDiff penv f filter unit diff = .panic ↔ PrintingCrashes penv f filter diff := by
  have hmem : ∀ e, e ∈ (sortChanges (filterChanges diff filter)).reverse ↔ e ∈ diff ∧ Kept filter e := by
    intro e
    rw [((List.reverse_perm _).trans (C37_sort_changes (filterChanges diff filter)).perm).mem_iff]
    unfold filterChanges
    rw [List.mem_filter, keepChange_iff]
  have key : ∀ k : Option TableOut → Shown, (printChangesHuman penv (sortChanges (filterChanges diff filter)).reverse f unit >>= fun t =>
      Res.ok (k t)) = .panic ↔ ∃ e ∈ diff, Kept filter e ∧ CannotStrip penv f e.file := by
    intro k
    rcases table_outcome h f unit (sortChanges (filterChanges diff filter)).reverse with ⟨t, h1, h2⟩ | ⟨h1, e, h2, h3⟩
    · rw [h1]
      constructor
      · intro h'; cases h'
      · rintro ⟨e, k1, k2, k3⟩; exact absurd k3 (h2 e ((hmem e).2 ⟨k1, k2⟩))
    · rw [h1]
      exact iff_of_true rfl ⟨e, ((hmem e).1 h2).1, ((hmem e).1 h2).2, h3⟩
  unfold showDiff printChanges PrintingCrashes
  cases hf : f.format with
  | human => exact (key _).trans (by simp)
  | markdown => exact (key _).trans (by simp)
  | csv => simp
  | briefHuman => simp
  | json => simp

/-! ### Commands -/

section

variable {W : World}

theorem compare_not_panic {ho : HashOrder} {rx : RegexEngine} {olds news : List ChromaticExtrinsic} {params : CompareParams} {filter : FilterParams} :
    compareFiles .release ho rx olds news params filter ≠ .panic := by
  intro h
  rcases C32_total ho rx olds news params filter with ⟨d, h'⟩ | ⟨⟨m, h'⟩, -⟩ <;> rw [h'] at h <;> cases h

/-- C106: exactly when `compare files` crashes. -/
theorem C106_files_crash {ho : HashOrder} {rx : RegexEngine} {env : Env} {penv : PrintEnv} (hs : StripSane penv) {fs : Fs} {params : CompareParams}
    {filter : FilterParams} {f : FormatParams} {old new : List Path} :
    cliCompareFiles .release ho rx env penv fs params filter f old new = .panic ↔
      FilesCrash env fs params.ignoreErrors old ∨ ∃ olds, ReadFiles env fs params.ignoreErrors old olds ∧
        (FilesCrash env fs params.ignoreErrors new ∨ ∃ news report, ReadFiles env fs params.ignoreErrors new news ∧
          compareFiles .release ho rx olds news params filter = .ok report ∧ PrintingCrashes penv f filter report) := by
  rw [cliCompareFiles_eq, bind_eq_panic, readOr_panic]
  refine or_congr Iff.rfl (exists_congr fun olds => ?_)
  rw [readFiles_iff, bind_eq_panic, readOr_panic]
  refine and_congr Iff.rfl (or_congr Iff.rfl (exists_congr fun news => ?_))
  rw [readFiles_iff, bind_eq_panic, or_iff_right compare_not_panic]
  simp only [show_panic hs, exists_and_left]

theorem main_crash {b : Build} {ho : HashOrder} {rx : RegexEngine} {env : Env} {penv : PrintEnv} {args : List Str} {s : Run W} {s' : W.State} :
    CrashesIn (cliMain b ho rx env penv args) s s' ↔ ∃ v cmd, readCommandLine b args = some (v, cmd) ∧ CrashesIn (cmd.run b ho rx env penv) s s' := by
  unfold cliMain
  cases hr : readCommandLine b args with
  | none =>
    constructor
    · rintro ⟨l, h⟩; cases h
    · rintro ⟨v, cmd, h, -⟩; cases h
  | some vc =>
    obtain ⟨v, cmd⟩ := vc
    dsimp only
    rw [crashesIn_bind]
    constructor
    · rintro (h | ⟨a, s1, -, l, h⟩)
      · exact ⟨v, cmd, rfl, h⟩
      · cases h
    · rintro ⟨v', cmd', h, h'⟩
      cases h
      exact .inl h'

theorem map_panic_iff {α β : Type} {x : Res α} {f : α → β} : x.map f = .panic ↔ x = .panic := by cases x <;> simp [Res.map]

theorem here_crash {α : Type} {r : Res α} {s : Run W} {s' : W.State} : (∃ l, (r, s) = (.panic, ⟨s', l⟩)) ↔ s' = s.state ∧ r = .panic := by
  constructor
  · rintro ⟨l, h⟩
    obtain ⟨h1, h2⟩ := Prod.mk.inj h
    exact ⟨by rw [h2], h1⟩
  · rintro ⟨rfl, rfl⟩; exact ⟨s.log, rfl⟩

theorem reports_iff {b : Build} {ho : HashOrder} {rx : RegexEngine} {env : Env} {repo : Path} {old new : Str} {params : CompareParams}
    {filter : FilterParams} {pattern : Str} {maxFiles : Nat} {s : Run W} {s' : W.State} {diff : List ExtrinsicDiff} :
    (∃ l, compareCommits b ho rx env repo old new params filter pattern maxFiles s = (.ok diff, ⟨s', l⟩)) ↔
      Reports W b ho rx env repo old new params filter pattern maxFiles s.state diff s' := by
  have key : ∀ s : Run W, (∃ l, compareCommits b ho rx env repo old new params filter pattern maxFiles s = (.ok diff, ⟨s', l⟩)) ↔
      (compareCommitsP b ho rx env repo old new params filter pattern maxFiles).run W s.state = (.ok diff, s') := by
    intro s
    rw [refines_compareCommits]
    generalize compareCommits b ho rx env repo old new params filter pattern maxFiles s = r
    obtain ⟨r, t, l⟩ := r
    simp
  exact (key s).trans (key ⟨s.state, []⟩).symm

/-- C106: exactly when the tool crashes, and in which state it leaves the repository: one of the files that are reached is fatal or nameless, or the prefix cannot
be removed from the path of a row of a table. -/
theorem C106_crash {ho : HashOrder} {rx : RegexEngine} {env : Env} {penv : PrintEnv} (hs : StripSane penv) {args : List Str} {s : Run W} {s' : W.State} :
    (∃ log, cliMain .release ho rx env penv args s = (.panic, ⟨s', log⟩)) ↔
      ∃ v cmd, readCommandLine .release args = some (v, cmd) ∧ CommandCrashes W ho rx env penv s.state s' cmd := by
  refine main_crash.trans (exists_congr fun v => exists_congr fun cmd => and_congr_right fun _ => ?_)
  cases cmd with
  | compareFiles params filter f old new =>
    refine here_crash.trans (and_congr_right fun _ => ?_)
    rw [map_panic_iff, C106_files_crash hs]
  | parseFiles files =>
    refine here_crash.trans (and_congr_right fun _ => ?_)
    rw [map_panic_iff, ← readOr_panic, if_neg (by decide)]
    show (parseFiles env (W.fs s.state) files >>= _) = _ ↔ _
    cases parseFiles env (W.fs s.state) files <;> simp
  | compareCommits params filter f old new repo pattern =>
    unfold Command.run CommandCrashes
    dsimp only
    rw [crashesIn_bind]
    have hret : ∀ (x : Shown ⊕ Str × Str) (s1 : Run W), ¬ CrashesIn (Act.ret x : Act W _) s1 s' := by
      rintro x s1 ⟨l, h⟩; cases h
    constructor
    · rintro (h | ⟨a, s1, -, h⟩)
      · unfold cliCompareCommits at h
        rcases crashesIn_bind.1 h with h | ⟨diff, s1, h1, l, h⟩
        · exact .inl ((C108_crash_iff s').1 h)
        · obtain ⟨h2, h3⟩ := Prod.mk.inj h
          refine .inr ⟨diff, reports_iff.1 ⟨l, ?_⟩, (show_panic hs _ _ _ _).1 h2⟩
          rw [← h3]
          exact h1
      · exact absurd h (hret _ _)
    · rintro (h | ⟨diff, h1, h2⟩)
      · exact .inl (crashesIn_bind.2 (.inl (C108_crash h)))
      · obtain ⟨l, h1⟩ := (reports_iff (s := s)).2 h1
        exact .inl (crashesIn_bind.2 (.inr ⟨diff, _, h1, l, by
          show (showDiff penv f filter params.unit diff, _) = _
          rw [(show_panic hs _ _ _ _).2 h2]⟩))

/-- C106: how a command line that is understood ends, without any condition on the files: with status 101 exactly if the command crashes, with status 1 exactly if
something else goes wrong first, with status 0 otherwise; never in two ways. -/
theorem C106_exit (ho : HashOrder) (rx : RegexEngine) (env : Env) (penv : PrintEnv) (hs : StripSane penv) (args : List Str) (s : Run W)
    {v : Bool} {cmd : Command} (hr : readCommandLine .release args = some (v, cmd)) :
    ((cliMain .release ho rx env penv args s).1.status = some 101 ↔ ∃ s', CommandCrashes W ho rx env penv s.state s' cmd) ∧
    ((cliMain .release ho rx env penv args s).1.status = some 1 ↔ ∃ s' why, CommandFails W rx env s.state s' why cmd) ∧
    ((cliMain .release ho rx env penv args s).1.status = some 0 ↔
      (¬ ∃ s', CommandCrashes W ho rx env penv s.state s' cmd) ∧ ¬ ∃ s' why, CommandFails W rx env s.state s' why cmd) := by
  have hc : (cliMain .release ho rx env penv args s).1 = .panic ↔ ∃ s', CommandCrashes W ho rx env penv s.state s' cmd := by
    constructor
    · intro h
      obtain ⟨v', cmd', h1, h2⟩ := (C106_crash hs (s' := (cliMain .release ho rx env penv args s).2.state)).1
        ⟨(cliMain .release ho rx env penv args s).2.log, Prod.ext h rfl⟩
      rw [hr] at h1
      cases h1
      exact ⟨_, h2⟩
    · rintro ⟨s', h⟩
      obtain ⟨l, h⟩ := (C106_crash (ho := ho) (rx := rx) (env := env) hs).2 ⟨v, cmd, hr, h⟩
      rw [h]
  have he : (∃ m, (cliMain .release ho rx env penv args s).1 = .err m) ↔ ∃ s' why, CommandFails W rx env s.state s' why cmd := by
    constructor
    · rintro ⟨m, h⟩
      obtain ⟨v', cmd', h1, h2⟩ := C106_why (stripSane_noErr hs) (s' := (cliMain .release ho rx env penv args s).2) (why := m) (Prod.ext h rfl)
      rw [hr] at h1
      cases h1
      exact ⟨_, _, h2⟩
    · rintro ⟨s', why, h⟩
      obtain ⟨l, h⟩ := C106_said (ho := ho) (stripSane_noErr hs) hr h
      exact ⟨why, by rw [h]⟩
  have hd := C92_ends .release ho rx env penv args s fun p g path h => (hs p g path h).2
  rw [← hc, ← he]
  generalize (cliMain .release ho rx env penv args s).1 = r at hd ⊢
  cases r with
  | diverge => exact absurd rfl hd
  | _ => simp [Res.status]

end

/-! ### Examples -/

/-- No pattern is a regular expression: this is only noticed if there is a row to print in a table. -/
def exBadStrip : PrintEnv := ⟨fun _ => none, fun _ => []⟩

example : StripSane exBadStrip := fun _ _ _ h => nomatch h

/-- How a comparison of two revisions ends if a prefix is to be removed. -/
def exStripStatus (old new : Str) (format : List Str) : Option Nat :=
  (cliMain (W := exWorld) .release idOrder exRegex exEnv exBadStrip ([str% "compare", str% "commits", old, new, str% "--repo", str% "r", str% "--path-pattern",
    str% "*", str% "--method", str% "base", str% "--git-pull", str% "--git-force", str% "--strip-path-prefix", str% "("] ++ format) ⟨str% "start", []⟩).1.status

example : exStripStatus (str% "v1") (str% "v2") [] = some 101 := by decide +kernel
example : exStripStatus (str% "v1") (str% "v2") [str% "--format", str% "csv"] = some 0 := by decide +kernel
example : exStripStatus (str% "v1") (str% "v3") [] = some 1 := by decide +kernel

end Swc
