/-
C106: how the programs end, and what they say about it.
-/
import Verif.Spec.Ending
import Verif.Props.Printed
import Verif.Props.Failure
import Verif.Props.Site

namespace Swc

open Spec

/-! ### Files -/

/-- C106: what is said about a file that is not a weight file: of which files, and what. -/
theorem C106_misread (env : Env) (fs : Fs) (p : Path) (why : Str) : parseFile env fs p = .err why ↔ Unreadable env fs p why := parseFile_err env fs p why

theorem readOr_err {env : Env} {fs : Fs} {ign : Bool} {l : List Path} {m : Str} :
    (if ign then tryParseFiles env fs l else parseFiles env fs l) = .err m ↔ ign = false ∧ FirstUnreadable env fs l m := by
  cases ign with
  | true =>
    constructor
    · intro h; exact absurd h tryParseAll_err
    · rintro ⟨h, -⟩; cases h
  | false =>
    simp only [Bool.false_eq_true, if_false, true_and]
    have := (C76_parse env fs l).2.2 m
    rw [← this]
    unfold cliParseFiles
    cases parseFiles env fs l <;> simp

/-- Removing a prefix from a path does not end with an error (but perhaps with a panic). -/
def StripNoErr (penv : PrintEnv) : Prop := ∀ p g path m, penv.strip p = some g → g path ≠ .err m

theorem ok_not_err {α : Type} (a : α) (m : Str) : Res.ok a ≠ .err m := nofun

theorem mapM_not_err {α β : Type} {f : α → Res β} {l : List α} (h : ∀ a m, f a ≠ .err m) (m : Str) : l.mapM f ≠ .err m := mapM_no_err h l m

theorem bind_not_err {α β : Type} {x : Res α} {f : α → Res β} (hx : ∀ m, x ≠ .err m) (hf : ∀ a m, f a ≠ .err m) (m : Str) : (x >>= f) ≠ .err m := by
  cases x with
  | ok a => exact hf a m
  | err e => exact absurd rfl (hx e)
  | panic => exact fun h => nomatch h
  | diverge => exact fun h => nomatch h

theorem show_err {penv : PrintEnv} (hs : StripNoErr penv) {f : FormatParams} {filter : FilterParams} {unit : Dimension}
    {diff : List ExtrinsicDiff} {m : Str} : showDiff penv f filter unit diff = .err m ↔ Missing f ∧ m = str% "Unsupported output format" := by
  have path : ∀ s m, filterPath penv f s ≠ .err m := by
    intro s m
    unfold filterPath
    cases f.stripPathPrefix with
    | none => exact fun h => nomatch h
    | some p =>
      dsimp only
      cases hg : penv.strip p with
      | none => exact fun h => nomatch h
      | some g => exact hs p g s m hg
  have table : ∀ l m, printChangesHuman penv l f unit ≠ .err m := by
    intro l m
    unfold printChangesHuman
    split
    · exact fun h => nomatch h
    · exact bind_not_err (mapM_not_err fun e => bind_not_err (path _) fun _ => ok_not_err _)
        (fun _ => bind_not_err (mapM_not_err fun e => bind_not_err (path _) fun _ => ok_not_err _) fun _ => ok_not_err _) m
  unfold showDiff printChanges Missing
  cases f.format with
  | human => simpa using bind_not_err (table _) (fun _ => ok_not_err _) m
  | markdown => simpa using bind_not_err (table _) (fun _ => ok_not_err _) m
  | csv => simp
  | briefHuman => simp [eq_comm]
  | json => simp [eq_comm]

theorem noBad_ok {ho : HashOrder} {rx : RegexEngine} {olds news : List ChromaticExtrinsic} {params : CompareParams} {filter : FilterParams}
    (h : ∀ m, ¬ BadFilter rx filter m) : ∃ diff, compareFiles .release ho rx olds news params filter = .ok diff := by
  rcases C32_total ho rx olds news params filter with h' | ⟨⟨m, h'⟩, -⟩
  · exact h'
  · exact absurd ((C100_filter _ _ _ _ _ _ _ _).1 h') (h m)

theorem ok_noBad {b : Build} {ho : HashOrder} {rx : RegexEngine} {olds news : List ChromaticExtrinsic} {params : CompareParams} {filter : FilterParams}
    {diff : List ExtrinsicDiff} (h : compareFiles b ho rx olds news params filter = .ok diff) (m : Str) : ¬ BadFilter rx filter m := by
  intro hb
  rw [(C100_filter _ _ _ _ _ _ _ _).2 hb] at h
  cases h

theorem bind_err_iff {α β : Type} {x : Res α} {f : α → Res β} {m : Str} : (x >>= f) = .err m ↔ x = .err m ∨ ∃ a, x = .ok a ∧ f a = .err m := by
  cases x <;> simp

/-- C106: if `compare files` fails, it says what goes wrong first. -/
theorem C106_files_why {b : Build} {ho : HashOrder} {rx : RegexEngine} {env : Env} {penv : PrintEnv} (hs : StripNoErr penv) {fs : Fs} {params : CompareParams}
    {filter : FilterParams} {f : FormatParams} {old new : List Path} {why : Str}
    (h : cliCompareFiles b ho rx env penv fs params filter f old new = .err why) : NoFilesReport rx env fs params filter f old new why := by
  rw [cliCompareFiles_eq, bind_err_iff] at h
  rcases h with h | ⟨olds, h1, h⟩
  · exact .inl (readOr_err.1 h)
  refine .inr ⟨olds, (readFiles_iff _ _ _ _ _).1 h1, ?_⟩
  rw [bind_err_iff] at h
  rcases h with h | ⟨news, h2, h⟩
  · exact .inl (readOr_err.1 h)
  refine .inr ⟨news, (readFiles_iff _ _ _ _ _).1 h2, ?_⟩
  rw [bind_err_iff] at h
  rcases h with h | ⟨diff, h3, h⟩
  · exact .inl ((C100_filter _ _ _ _ _ _ _ _).1 h)
  · exact .inr ⟨ok_noBad h3, (show_err hs).1 h⟩

/-- C106: whatever goes wrong first with `compare files` is what it says. -/
theorem C106_files_said {ho : HashOrder} {rx : RegexEngine} {env : Env} {penv : PrintEnv} (hs : StripNoErr penv) {fs : Fs} {params : CompareParams}
    {filter : FilterParams} {f : FormatParams} {old new : List Path} {why : Str} (h : NoFilesReport rx env fs params filter f old new why) :
    cliCompareFiles .release ho rx env penv fs params filter f old new = .err why := by
  rw [cliCompareFiles_eq, bind_err_iff]
  rcases h with h | ⟨olds, h1, h⟩
  · exact .inl (readOr_err.2 h)
  refine .inr ⟨olds, (readFiles_iff _ _ _ _ _).2 h1, ?_⟩
  rw [bind_err_iff]
  rcases h with h | ⟨news, h2, h⟩
  · exact .inl (readOr_err.2 h)
  refine .inr ⟨news, (readFiles_iff _ _ _ _ _).2 h2, ?_⟩
  rw [bind_err_iff]
  rcases h with h | ⟨h3, h⟩
  · exact .inl ((C100_filter _ _ _ _ _ _ _ _).2 h)
  · obtain ⟨diff, hd⟩ := noBad_ok (ho := ho) (olds := olds) (news := news) (params := params) h3
    exact .inr ⟨diff, hd, (show_err hs).2 h⟩

/-! ### Commands -/

section

variable {W : World}

theorem commits_usable {b : Build} {ho : HashOrder} {rx : RegexEngine} {env : Env} {repo : Path} {old new : Str} {params : CompareParams} {filter : FilterParams}
    {pattern : Str} {maxFiles : Nat} {s s' : Run W} {diff : List ExtrinsicDiff}
    (h : compareCommits b ho rx env repo old new params filter pattern maxFiles s = (.ok diff, s')) :
    ¬ DotDot pattern ∧ (∃ s1, Usable W env repo old params pattern maxFiles s.state s1 ∧ Usable W env repo new params pattern maxFiles s1 s'.state) ∧
      ∀ m, ¬ BadFilter rx filter m := by
  rw [compareCommits_revs] at h
  split at h
  · cases h
  · next hd =>
    refine ⟨fun h => hd ((hasDotDot_iff pattern).2 h), ?_⟩
    obtain ⟨olds, s1, h1, h⟩ := Act.bind_ok.1 h
    obtain ⟨news, s2, h2, h⟩ := Act.bind_ok.1 h
    obtain ⟨h3, h4⟩ := Prod.mk.inj h
    refine ⟨⟨s1.state, useRev_ok.1 ⟨olds, s1.log, h1⟩, ?_⟩, ok_noBad h3⟩
    rw [← h4]
    exact useRev_ok.1 ⟨news, s2.log, h2⟩

theorem usable_commits {ho : HashOrder} {rx : RegexEngine} {env : Env} {repo : Path} {old new : Str} {params : CompareParams} {filter : FilterParams}
    {pattern : Str} {maxFiles : Nat} {s : Run W} {s1 s' : W.State} (hd : ¬ DotDot pattern) (h1 : Usable W env repo old params pattern maxFiles s.state s1)
    (h2 : Usable W env repo new params pattern maxFiles s1 s') (hf : ∀ m, ¬ BadFilter rx filter m) :
    ∃ diff log, compareCommits .release ho rx env repo old new params filter pattern maxFiles s = (.ok diff, ⟨s', log⟩) := by
  rw [compareCommits_revs, if_neg fun h => hd ((hasDotDot_iff pattern).1 h)]
  obtain ⟨olds, l1, h1⟩ := useRev_ok.2 h1
  obtain ⟨news, l2, h2⟩ := (useRev_ok (s := ⟨s1, l1⟩)).2 h2
  obtain ⟨diff, h3⟩ := noBad_ok (ho := ho) (olds := olds) (news := news) (params := params) hf
  exact ⟨diff, l2, Act.bind_ok.2 ⟨olds, _, h1, Act.bind_ok.2 ⟨news, _, h2, by rw [h3]; rfl⟩⟩⟩

theorem main_err {b : Build} {ho : HashOrder} {rx : RegexEngine} {env : Env} {penv : PrintEnv} {args : List Str} {s : Run W} {s' : W.State} {why : Str} :
    ErrsTo (cliMain b ho rx env penv args) s why s' ↔ ∃ v cmd, readCommandLine b args = some (v, cmd) ∧ ErrsTo (cmd.run b ho rx env penv) s why s' := by
  unfold cliMain
  cases hr : readCommandLine b args with
  | none =>
    constructor
    · rintro ⟨l, h⟩; cases h
    · rintro ⟨v, cmd, h, -⟩; cases h
  | some vc =>
    obtain ⟨v, cmd⟩ := vc
    dsimp only
    rw [errsTo_bind]
    constructor
    · rintro (h | ⟨a, s1, -, l, h⟩)
      · exact ⟨v, cmd, rfl, h⟩
      · cases h
    · rintro ⟨v', cmd', h, h'⟩
      cases h
      exact .inl h'

theorem map_err_iff {α β : Type} {x : Res α} {f : α → β} {m : Str} : x.map f = .err m ↔ x = .err m := by
  cases x <;> simp [Res.map]

theorem errsTo_here {α : Type} {r : Res α} {s : Run W} {m : Str} {s' : W.State} : ErrsTo (fun s => (r, s)) s m s' ↔ r = .err m ∧ s' = s.state := errsTo_lift

/-- C106: if the tool fails, its command line has been understood, and it says what goes wrong first. -/
theorem C106_why {b : Build} {ho : HashOrder} {rx : RegexEngine} {env : Env} {penv : PrintEnv} (hs : StripNoErr penv) {args : List Str} {s s' : Run W} {why : Str}
    (h : cliMain b ho rx env penv args s = (.err why, s')) :
    ∃ v cmd, readCommandLine b args = some (v, cmd) ∧ CommandFails W rx env s.state s'.state why cmd := by
  obtain ⟨v, cmd, hr, l, h⟩ := main_err.1 ⟨s'.log, h⟩
  refine ⟨v, cmd, hr, ?_⟩
  cases cmd with
  | compareFiles params filter f old new =>
    obtain ⟨h1, h2⟩ := Prod.mk.inj h
    exact ⟨by rw [← congrArg Run.state h2], C106_files_why hs (map_err_iff.1 h1)⟩
  | parseFiles files =>
    obtain ⟨h1, h2⟩ := Prod.mk.inj h
    exact ⟨by rw [← congrArg Run.state h2], ((C76_parse _ _ _).2.2 _).1 (map_err_iff.1 h1)⟩
  | compareCommits params filter f old new repo pattern =>
    have h : ErrsTo _ s why s'.state := ⟨l, h⟩
    unfold Command.run at h
    dsimp only at h
    rcases errsTo_bind.1 h with h | ⟨a, s1, -, l, h⟩
    · unfold cliCompareCommits at h
      rcases errsTo_bind.1 h with ⟨l, h⟩ | ⟨diff, s1, h1, h⟩
      · exact .inl (C100_why (s' := ⟨s'.state, l⟩) h)
      · obtain ⟨h2, h3⟩ := errsTo_lift.1 h
        obtain ⟨h4, ⟨s2, h5, h6⟩, h7⟩ := commits_usable h1
        rw [h3]
        exact .inr ⟨h4, s2, h5, h6, h7, (show_err hs).1 h2⟩
    · cases h

/-- C106: whatever goes wrong first is what the tool says. -/
theorem C106_said {ho : HashOrder} {rx : RegexEngine} {env : Env} {penv : PrintEnv} (hs : StripNoErr penv) {args : List Str} {s : Run W} {s' : W.State} {why : Str}
    {v : Bool} {cmd : Command} (hr : readCommandLine .release args = some (v, cmd)) (h : CommandFails W rx env s.state s' why cmd) :
    ∃ log, cliMain .release ho rx env penv args s = (.err why, ⟨s', log⟩) := by
  cases cmd with
  | compareFiles params filter f old new =>
    obtain ⟨rfl, h⟩ := h
    refine main_err.2 ⟨v, _, hr, s.log, ?_⟩
    show ((cliCompareFiles _ _ _ _ _ _ _ _ _ _ _).map _, s) = _
    rw [C106_files_said hs h]
    rfl
  | parseFiles files =>
    obtain ⟨rfl, h⟩ := h
    refine main_err.2 ⟨v, _, hr, s.log, ?_⟩
    show ((cliParseFiles env (W.fs s.state) files).2.map _, s) = _
    rw [((C76_parse _ _ _).2.2 _).2 h]
    rfl
  | compareCommits params filter f old new repo pattern =>
    rcases h with h | ⟨h1, s1, h2, h3, h4, h5⟩
    · exact main_err.2 ⟨v, _, hr, errsTo_bind.2 (.inl (errsTo_bind.2 (.inl (C100_said (b := .release) (ho := ho) h))))⟩
    · obtain ⟨diff, l, h6⟩ := usable_commits (ho := ho) h1 h2 h3 h4
      exact main_err.2 ⟨v, _, hr, errsTo_bind.2 (.inl (errsTo_bind.2 (.inr ⟨diff, _, h6, errsTo_lift.2 ⟨(show_err hs).2 h5, rfl⟩⟩)))⟩

end

/-- C106: the text of an error can be read off what is printed. -/
theorem C106_words {plain : Char → Bool} {why why' : Str} (h : lastWords plain why = lastWords plain why') : why = why' := by
  have := List.append_cancel_left h
  exact C100_read_back (C100_quoted plain why) (this ▸ C100_quoted plain why')

/-- C106: what is printed is the text of the error in quotes, with escapes, all of it on one line. -/
theorem C106_printed (plain : Char → Bool) (why : Str) :
    (∃ q, Quoted plain why q ∧ lastWords plain why = str% "Error: " ++ q) ∧ '\n' ∉ lastWords plain why := by
  refine ⟨⟨_, C100_quoted plain why, rfl⟩, ?_⟩
  obtain ⟨body, hb, he⟩ := C100_quoted plain why
  have key : ∀ {s q : Str}, QuotedBody plain s q → '\n' ∉ q := by
    intro s q h
    induction h with
    | done => simp
    | @letter c e s q hm _ ih =>
      simp only [List.mem_cons, not_or]
      refine ⟨by decide, ?_, ih⟩
      rintro rfl
      revert hm
      simp [escapeLetters]
    | @plain c s q hc _ _ ih =>
      simp only [List.mem_cons, not_or]
      refine ⟨?_, ih⟩
      rintro rfl
      exact hc 'n' (by decide)
    | @code c h s q _ _ hh _ ih =>
      simp only [List.mem_append, List.mem_cons, not_or]
      exact ⟨⟨by decide, fun hm => absurd (hh.digits _ hm) (by decide)⟩, by decide, ih⟩
  unfold lastWords
  rw [he]
  simp only [List.mem_append, not_or]
  have := key hb
  simp only [List.mem_cons, not_or]
  exact ⟨by decide, ⟨by decide, this⟩, by decide⟩

/-- C106: built for release, with harmless files that have names, a command line that is understood ends with status 0 or 1, with 1 exactly if something
goes wrong. -/
theorem C106_status {W : World} (ho : HashOrder) (rx : RegexEngine) (env : Env) (penv : PrintEnv) (hs : StripNoErr penv) (args : List Str) (s : Run W)
    (hf : ∀ s p c, W.fs s p = .ok c → Harmless env.syn c ∧ ∃ dir name, p = dir ++ [.normal name])
    (hp : ∀ p g path, penv.strip p = some g → g path ≠ .diverge ∧ g path ≠ .panic) {v : Bool} {cmd : Command} (hr : readCommandLine .release args = some (v, cmd))
    (hc : ∀ p, Strips cmd p → penv.strip p ≠ none) :
    ((cliMain .release ho rx env penv args s).1.status = some 1 ∧ ∃ s' why, CommandFails W rx env s.state s' why cmd) ∨
    ((cliMain .release ho rx env penv args s).1.status = some 0 ∧ ¬ ∃ s' why, CommandFails W rx env s.state s' why cmd) := by
  have h1 := C92_ends .release ho rx env penv args s fun p g path h => (hp p g path h).1
  have h2 := C92_safe ho rx env penv args s hf fun v' cmd' p h h' => by
    rw [hr] at h
    cases h
    cases hg : penv.strip p with
    | none => exact absurd hg (hc p h')
    | some g => exact ⟨g, rfl, fun path => (hp p g path hg).2⟩
  rcases hm : cliMain .release ho rx env penv args s with ⟨r, s'⟩
  rw [hm] at h1 h2
  cases r with
  | ok a =>
    refine .inr ⟨rfl, ?_⟩
    rintro ⟨s', why, h⟩
    obtain ⟨l, h⟩ := C106_said (ho := ho) hs hr h
    rw [hm] at h; cases h
  | err why =>
    obtain ⟨v', cmd', h, h'⟩ := C106_why hs hm
    rw [hr] at h
    cases h
    exact .inl ⟨rfl, s'.state, why, h'⟩
  | panic => exact absurd rfl h2
  | diverge => exact absurd rfl h1

/-- C106, against what one might expect of a tool for checks of pull requests: the status does not tell whether weights have changed.  With files that can be read, a
filter that is one and a format that exists, it is 0 however much the weights have grown. -/
theorem C106_false_gate {W : World} (ho : HashOrder) (rx : RegexEngine) (env : Env) (penv : PrintEnv) (args : List Str) (s : Run W) {v : Bool}
    {params : CompareParams} {filter : FilterParams} {f : FormatParams} {old new : List Path}
    (hr : readCommandLine .release args = some (v, .compareFiles params filter f old new)) {olds news : List ChromaticExtrinsic}
    (h1 : ReadFiles env (W.fs s.state) params.ignoreErrors old olds) (h2 : ReadFiles env (W.fs s.state) params.ignoreErrors new news)
    (h3 : ∀ m, ¬ BadFilter rx filter m) (h4 : f.format = .csv) :
    (cliMain .release ho rx env penv args s).1.status = some 0 := by
  obtain ⟨diff, hd⟩ := noBad_ok (ho := ho) (olds := olds) (news := news) (params := params) h3
  have hshow : ∃ shown, showDiff penv f filter params.unit diff = .ok shown := by
    unfold showDiff printChanges
    rw [h4]
    exact ⟨_, rfl⟩
  obtain ⟨shown, hshow⟩ := hshow
  have : cliMain .release ho rx env penv args s = (.ok (some (.inl shown)), s) := by
    rw [main_iff]
    refine ⟨v, _, hr, ?_⟩
    show ((cliCompareFiles _ _ _ _ _ _ _ _ _ _ _).map _, s) = _
    rw [(C76_files ..).2 ⟨olds, news, diff, h1, h2, hd, hshow⟩]
    rfl
  rw [this]
  rfl

/-! ### The web server -/

theorem origin_err {out : GitOut} {e : Str} : getOriginOrg out = .err e ↔ NoOrigin out e := by
  unfold NoOrigin
  cases out with
  | spawnFailed e' => simp [getOriginOrg, Success, gitSays, eq_comm]
  | exited ok stdout stderr utf8 =>
    cases ok with
    | false => simp [getOriginOrg, Success, gitSays, eq_comm]
    | true =>
      have hS : Success (.exited true stdout stderr utf8) := by simp [Success]
      simp only [hS, not_true_eq_false, false_and, false_or]
      constructor
      · intro h
        refine ⟨stdout, stderr, utf8, rfl, fun c org hc hu => ?_, ?_⟩
        · rw [(C63_ok_iff _ _).2 ⟨stdout, stderr, utf8, c, rfl, hc, hu⟩] at h; cases h
        · unfold getOriginOrg at h
          dsimp only at h
          split at h
          · cases h
          · cases h; rfl
      · rintro ⟨stdout', stderr', utf8', h, hno, rfl⟩
        cases h
        have : orgOf stdout = none := by
          cases ho : orgOf stdout with
          | none => rfl
          | some org =>
            obtain ⟨c, hc, hu⟩ := (C63_org_iff _ _).1 ho
            exact absurd hu (hno c org hc)
        simp [getOriginOrg, this]

theorem good_iff {m : Machine} {c : ServerCmd} {n : Str} :
    RepoGood ⟨c.root.join, m.origin, m.exists_, m.isDir c.static, debugStr m.plain c.static.display⟩ n ↔ Servable m (c.root.join n) := by
  unfold RepoGood Servable
  simp only [C63_ok_iff]
  constructor
  · rintro ⟨h, org, stdout, stderr, utf8, d, h1, h2, h3⟩; exact ⟨h, stdout, stderr, utf8, d, org, h1, h2, h3⟩
  · rintro ⟨h, stdout, stderr, utf8, d, org, h1, h2, h3⟩; exact ⟨h, org, stdout, stderr, utf8, d, h1, h2, h3⟩

theorem addRepos_err (env : StartEnv) (names : List Str) (m : List (Str × Repo)) (why : Str) : addRepos env names m = .err why ↔
    ∃ before name after, names = before ++ name :: after ∧ (∀ n ∈ before, RepoGood env n) ∧
      ((∃ e, getOriginOrg (env.origin (env.join name)) = .err e ∧ why = str% "Failed to get origin of " ++ name ++ str% ": " ++ e) ∨
        ((∃ org, getOriginOrg (env.origin (env.join name)) = .ok org) ∧ env.exists_ (env.join name) = false ∧
          why = str% "Repo directory '" ++ (env.join name).display ++ str% "' does not exist")) := by
  induction names generalizing m with
  | nil =>
    constructor
    · intro h; cases h
    · rintro ⟨before, name, after, h, -⟩; simp at h
  | cons n names ih =>
    have split_ : ∀ P : List Str → Str → Prop, (∃ before name after, n :: names = before ++ name :: after ∧ P before name) ↔
        P [] n ∨ ∃ before name after, names = before ++ name :: after ∧ P (n :: before) name := by
      intro P
      constructor
      · rintro ⟨before, name, after, h, hP⟩
        cases before with
        | nil => cases h; exact .inl hP
        | cons b before => cases h; exact .inr ⟨before, name, after, rfl, hP⟩
      · rintro (h | ⟨before, name, after, rfl, hP⟩)
        · exact ⟨[], n, names, rfl, h⟩
        · exact ⟨n :: before, name, after, rfl, hP⟩
    rw [split_ (fun before name => (∀ n ∈ before, RepoGood env n) ∧
      ((∃ e, getOriginOrg (env.origin (env.join name)) = .err e ∧ why = str% "Failed to get origin of " ++ name ++ str% ": " ++ e) ∨
        ((∃ org, getOriginOrg (env.origin (env.join name)) = .ok org) ∧ env.exists_ (env.join name) = false ∧
          why = str% "Repo directory '" ++ (env.join name).display ++ str% "' does not exist")))]
    unfold addRepos
    dsimp only
    rcases C63_clean (env.origin (env.join n)) with ⟨org, ho⟩ | ⟨e, he⟩
    · rw [ho]
      dsimp only
      rw [Res.bind_ok]
      cases hx : env.exists_ (env.join n) with
      | true =>
        have hg : RepoGood env n := ⟨hx, org, ho⟩
        rw [if_pos rfl, ih]
        simp [hg]
      | false =>
        have hg : ¬ RepoGood env n := fun h => by rw [h.1] at hx; cases hx
        rw [if_neg (by decide)]
        simp only [hg, reduceCtorEq, false_and, exists_false, false_or, Res.ok.injEq, exists_eq', true_and, List.not_mem_nil, false_imp_iff, implies_true,
          List.forall_mem_cons, and_false, or_false, Res.err.injEq]
        exact eq_comm
    · have hg : ¬ RepoGood env n := fun ⟨_, org, h⟩ => by rw [h] at he; cases he
      rw [he]
      dsimp only
      rw [Res.bind_err]
      simp only [hg, reduceCtorEq, false_and, exists_false, or_false, Res.err.injEq, exists_eq_left', List.not_mem_nil, false_imp_iff, implies_true,
        List.forall_mem_cons, and_false, true_and]
      exact eq_comm

theorem origin_ok_iff {out : GitOut} : (∃ org, getOriginOrg out = .ok org) ↔ ∀ e, ¬ NoOrigin out e := by
  simp only [← origin_err]
  rcases C63_clean out with ⟨org, h⟩ | ⟨e, h⟩ <;> simp [h]

/-- C106: the start fails with a text exactly if this is what goes wrong first. -/
theorem C106_start {m : Machine} {args : List Str} {c : ServerCmd} (hc : readServerLine args = some c) (why : Str) :
    serverStart m args = some (.err why) ↔ StartFails m c why := by
  unfold serverStart
  rw [hc, Option.map_some, Option.some.injEq, map_err_iff]
  unfold startup StartFails
  by_cases h0 : c.repos = []
  · rw [if_pos h0, Res.err.injEq]
    constructor
    · rintro rfl; exact .inl ⟨h0, rfl⟩
    · rintro (⟨-, rfl⟩ | ⟨before, name, after, h, -⟩ | ⟨h, -⟩)
      · rfl
      · rw [h0] at h; simp at h
      · exact absurd h0 h
  · rw [if_neg h0, bind_err_iff, addRepos_err]
    simp only [origin_err, origin_ok_iff, good_iff, h0, false_and, false_or, ne_eq, not_false_eq_true, true_and]
    refine or_congr Iff.rfl ?_
    have hall := (addRepos_spec ⟨c.root.join, m.origin, m.exists_, m.isDir c.static, debugStr m.plain c.static.display⟩ c.repos []).1
    simp only [good_iff] at hall
    rw [← hall]
    constructor
    · rintro ⟨a, h1, h2⟩
      by_cases hd : m.isDir c.static = true
      · rw [if_pos hd] at h2; cases h2
      · rw [if_neg hd] at h2
        cases h2
        exact ⟨⟨a, h1⟩, by simpa using hd, _, C100_quoted _ _, rfl⟩
    · rintro ⟨⟨a, h1⟩, h2, q, hq, rfl⟩
      refine ⟨a, h1, ?_⟩
      rw [h2, if_neg (by decide), quoted_unique hq (C100_quoted _ _)]

theorem key_given {args : List Str} {c : ServerCmd} (hc : readServerLine args = some c) : c.cert = none ↔ c.key = none := by
  obtain ⟨g, -, h⟩ := (C86_server _ _).1 hc
  exact h.both

/-- The certificate, if any, can be used. -/
def Spec.Secured (net : Net) (c : ServerCmd) : Prop := ∀ cert, c.cert = some cert → ∃ key, c.key = some key ∧ net.tls key cert = true

theorem start_cases {m : Machine} {args : List Str} {c : ServerCmd} (hc : readServerLine args = some c) :
    (CanStart m c ∧ ∃ repos, serverStart m args = some (.ok (c, repos))) ∨ (¬ CanStart m c ∧ ∃ why, StartFails m c why ∧ serverStart m args = some (.err why)) := by
  obtain ⟨h1, h2⟩ := C66_starts_iff ⟨c.root.join, m.origin, m.exists_, m.isDir c.static, debugStr m.plain c.static.display⟩ c.repos
  simp only [good_iff] at h1
  rcases h2 with ⟨r, h⟩ | ⟨e, h⟩
  · refine .inl ⟨h1.1 ⟨r, h⟩, r, ?_⟩
    unfold serverStart
    rw [hc, Option.map_some, h]
    rfl
  · have hs : serverStart m args = some (.err e) := by
      unfold serverStart
      rw [hc, Option.map_some, h]
      rfl
    refine .inr ⟨fun hcan => ?_, e, (C106_start hc e).1 hs, hs⟩
    obtain ⟨r, h'⟩ := h1.2 hcan
    rw [h] at h'
    cases h'

theorem startFails_not {m : Machine} {args : List Str} {c : ServerCmd} (hc : readServerLine args = some c) {why : Str} (h : StartFails m c why) : ¬ CanStart m c := by
  rcases start_cases (m := m) hc with ⟨-, repos, h'⟩ | ⟨h', -⟩
  · rw [(C106_start hc why).2 h] at h'; cases h'
  · exact h'

/-- C106: how the server starts with arguments that are understood.  It serves exactly if it can start, its certificate can be used, and the address is free.
It ends with status 1 exactly if something is missing or the address cannot be used, and prints what comes first.  It panics exactly if a certificate or
key cannot be used; so it never panics because there is no key. -/
theorem C106_server {m : Machine} {net : Net} {args : List Str} {c : ServerCmd} (hc : readServerLine args = some c) :
    ((∃ r, serverMain m net args = some (.ok r)) ↔
      CanStart m c ∧ Secured net c ∧ net.bind c.cert.isSome (c.endpoint ++ str% ":" ++ natToStr c.port) = none) ∧
    (∀ t, serverMain m net args = some (.err t) ↔
      (∃ why q, StartFails m c why ∧ Quoted m.plain why q ∧ t = str% "Error: Custom { kind: Other, error: " ++ q ++ str% " }") ∨
      (CanStart m c ∧ Secured net c ∧ ∃ e, net.bind c.cert.isSome (c.endpoint ++ str% ":" ++ natToStr c.port) = some e ∧ t = str% "Error: " ++ e)) ∧
    (serverMain m net args = some .panic ↔ CanStart m c ∧ ∃ cert key, c.cert = some cert ∧ c.key = some key ∧ net.tls key cert = false) := by
  rcases start_cases (m := m) hc with ⟨hcan, repos, h⟩ | ⟨hnot, why, hw, h⟩
  · have e : serverMain m net args = some (secure net c >>= fun _ => match net.bind c.cert.isSome (c.endpoint ++ str% ":" ++ natToStr c.port) with
        | none => .ok (c, repos)
        | some e => .err (str% "Error: " ++ e)) := by
      unfold serverMain
      rw [h]
      rfl
    have hno : ∀ why, ¬ StartFails m c why := fun why hw => startFails_not hc hw hcan
    have hsec : (secure net c = .ok () ∧ Secured net c ∧ ¬ ∃ cert key, c.cert = some cert ∧ c.key = some key ∧ net.tls key cert = false) ∨
        (secure net c = .panic ∧ ¬ Secured net c ∧ ∃ cert key, c.cert = some cert ∧ c.key = some key ∧ net.tls key cert = false) := by
      unfold secure Secured
      have hk := key_given hc
      cases h1 : c.cert with
      | none => exact .inl ⟨rfl, nofun, (fun ⟨_, _, h, _⟩ => nomatch h)⟩
      | some cert =>
        cases h2 : c.key with
        | none => rw [hk.2 h2] at h1; cases h1
        | some key =>
          cases h3 : net.tls key cert with
          | true =>
            refine .inl ⟨by simp [h3], fun cert' h => ?_, ?_⟩
            · cases h; exact ⟨key, rfl, h3⟩
            · rintro ⟨cert', key', h, h', h''⟩
              cases h; cases h'; rw [h3] at h''; cases h''
          | false =>
            refine .inr ⟨by simp [h3], fun h => ?_, cert, key, rfl, rfl, h3⟩
            obtain ⟨key', h', h''⟩ := h cert rfl
            cases h'; rw [h3] at h''; cases h''
    rw [e]
    rcases hsec with ⟨h1, h2, h3⟩ | ⟨h1, h2, h3⟩
    · rw [h1, Res.bind_ok]
      cases hb : net.bind c.cert.isSome (c.endpoint ++ str% ":" ++ natToStr c.port) with
      | none =>
        refine ⟨⟨fun _ => ⟨hcan, h2, rfl⟩, fun _ => ⟨_, rfl⟩⟩, fun t => ⟨(fun h => nomatch h), ?_⟩, (fun h => nomatch h), fun h => absurd h.2 h3⟩
        rintro (⟨why, _, hw, -⟩ | ⟨-, -, e, h, -⟩)
        · exact absurd hw (hno why)
        · cases h
      | some e =>
        refine ⟨⟨(fun ⟨_, h⟩ => nomatch h), (fun ⟨_, _, h⟩ => nomatch h)⟩, fun t => ⟨fun h => ?_, ?_⟩, (fun h => nomatch h), fun h => absurd h.2 h3⟩
        · cases h
          exact .inr ⟨hcan, h2, e, rfl, rfl⟩
        · rintro (⟨why, _, hw, -⟩ | ⟨-, -, e, h, rfl⟩)
          · exact absurd hw (hno why)
          · cases h; rfl
    · rw [h1]
      refine ⟨⟨(fun ⟨_, h⟩ => nomatch h), fun h => absurd h.2.1 h2⟩, fun t => ⟨(fun h => nomatch h), ?_⟩, fun _ => ⟨hcan, h3⟩, fun _ => rfl⟩
      rintro (⟨why, _, hw, -⟩ | ⟨-, h, -⟩)
      · exact absurd hw (hno why)
      · exact absurd h h2
  · have e : serverMain m net args = some (.err (otherError m.plain why)) := by
      unfold serverMain
      rw [h]
      rfl
    rw [e]
    refine ⟨⟨(fun ⟨_, h⟩ => nomatch h), fun h => absurd h.1 hnot⟩, fun t => ⟨fun h => ?_, ?_⟩, (fun h => nomatch h), fun h => absurd h.1 hnot⟩
    · cases h
      exact .inl ⟨why, _, hw, C100_quoted _ _, rfl⟩
    · rintro (⟨why', q, hw', hq, rfl⟩ | ⟨h, -⟩)
      · have := (C106_start hc why').2 hw'
        rw [h] at this
        cases this
        rw [quoted_unique hq (C100_quoted _ _)]
        rfl
      · exact absurd h hnot

/-- Git cannot be started in a directory that does not exist (`Command::current_dir`). -/
def Spec.NoGitWithout (m : Machine) : Prop := ∀ p, m.exists_ p = false → ∃ e, m.origin p = .spawnFailed e

/-- C106, against the code: the check whether the directory of a repository exists never finds anything, because git has been run in it before.  A missing
directory is reported as one without an origin. -/
theorem C106_false_directory {m : Machine} {c : ServerCmd} (hm : NoGitWithout m) {why : Str} (h : StartFails m c why) :
    ¬ str% "Repo directory" <+: why ∧
      ∀ before name after e, c.repos = before ++ name :: after → (∀ n ∈ before, Servable m (c.root.join n)) → m.exists_ (c.root.join name) = false →
        m.origin (c.root.join name) = .spawnFailed e → StartFails m c (str% "Failed to get origin of " ++ name ++ str% ": Failed to get origin url: " ++ e) := by
  constructor
  · intro hp
    rcases h with ⟨-, rfl⟩ | ⟨before, name, after, -, -, ⟨e, -, rfl⟩ | ⟨h1, h2, -⟩⟩ | ⟨-, -, -, q, -, rfl⟩
    · revert hp; decide
    · simp at hp
    · obtain ⟨e, he⟩ := hm _ h2
      exact h1 _ (.inl ⟨by rw [he]; simp [Success], rfl⟩)
    · simp at hp
  · intro before name after e h1 h2 h3 h4
    refine .inr (.inl ⟨before, name, after, h1, h2, .inl ⟨_, .inl ⟨by rw [h4]; simp [Success], rfl⟩, ?_⟩⟩)
    rw [h4]
    simp [gitSays, List.append_assoc]

/-! ### Concrete cases -/

/-- What the tool prints about an error, and its status. -/
def exEnd (args : List Str) : Option Str × Option Nat :=
  let r := (cliMain (W := exWorld) .release idOrder exRegex exEnv exPrintEnv args ⟨str% "start", []⟩).1
  ((errorOf r).map (lastWords asciiClass.plain), r.status)

example : exEnd [str% "compare", str% "commits", str% "v1", str% "v3", str% "--repo", str% "r", str% "--path-pattern", str% "*", str% "--method", str% "base",
    str% "--git-pull", str% "--git-force"] = (some (str% "Error: \"\\\"Failed to reset branch: no such revision\\\"\""), some 1) := by decide +kernel
example : exEnd [str% "compare", str% "commits", str% "v1", str% "v2", str% "--repo", str% "r", str% "--path-pattern", str% "*", str% "--method", str% "base",
    str% "--git-pull", str% "--git-force", str% "--format", str% "json"] = (some (str% "Error: \"Unsupported output format\""), some 1) := by decide +kernel
example : exEnd [str% "compare", str% "commits", str% "v1", str% "v2", str% "--repo", str% "r", str% "--path-pattern", str% "*", str% "--method", str% "base",
    str% "--git-pull", str% "--git-force"] = (none, some 0) := by decide +kernel

example : exEnd [str% "parse", str% "files", str% "a.rs"] = (none, some 0) := by decide +kernel
example : exEnd [str% "parse", str% "files", str% ".."] = (none, some 101) := by decide +kernel

/-- A machine with one repository, `root/polkadot`, and no other directory but `web/static`. -/
def exBareMachine : Machine :=
  ⟨fun p => if p = [.normal (str% "root"), .normal (str% "polkadot")] then .exited true (str% "https://github.com/me/polkadot\n") [] true
      else .spawnFailed (str% "No such file or directory (os error 2)"),
    fun p => p = [.normal (str% "root"), .normal (str% "polkadot")], fun p => p = [.normal (str% "web"), .normal (str% "static")], asciiClass.plain⟩

/-- Keys are in `key.pem`, and port 80 may not be used. -/
def exNet : Net := ⟨fun key _ => key = str% "key.pem", fun _ a => if a = str% "127.0.0.1:80" then some (str% "Os { code: 13 }") else none⟩

theorem exBare_noGit : NoGitWithout exBareMachine := by
  intro p hp
  have hp' : p ≠ [.normal (str% "root"), .normal (str% "polkadot")] := by simpa [exBareMachine] using hp
  exact ⟨_, if_neg hp'⟩

/-- What the server prints, or nothing if it serves. -/
def exStart (args : List Str) : Option (Option Str × Option Nat) := (serverMain exBareMachine exNet args).map fun r => (errorOf r, r.status)

example : exStart [] = some (none, some 0) := by decide +kernel
example : exStart [str% "--repos"] = some (some (str% "Error: Custom { kind: Other, error: \"Need at least one value to --repos\" }"), some 1) := by decide +kernel
example : exStart [str% "--repos", str% "polkadot", str% "cumulus"] = some (some
    (str% "Error: Custom { kind: Other, error: \"Failed to get origin of cumulus: Failed to get origin url: No such file or directory (os error 2)\" }"), some 1) := by
  decide +kernel
example : exStart [str% "--static", str% "here"] = some (some
    (str% "Error: Custom { kind: Other, error: \"Web root path '\\\"here\\\"' is not a directory\" }"), some 1) := by decide +kernel
example : exStart [str% "-p", str% "80"] = some (some (str% "Error: Os { code: 13 }"), some 1) := by decide +kernel
example : exStart [str% "--cert", str% "c.pem", str% "--key", str% "k.pem"] = some (none, some 101) := by decide +kernel
example : exStart [str% "--cert", str% "c.pem"] = none := by decide +kernel

end Swc
