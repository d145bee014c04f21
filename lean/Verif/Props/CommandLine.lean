/-
C86: command lines mean what they say.  The command line tool and the server understand exactly the lines that write down what is given in one of the
usual spellings, take every value from where it is given (or from the default), and refuse everything else.
-/
import Verif.Lemmas.Scan
import Verif.Lemmas.Values
import Verif.Props.Commands

namespace Swc

open Spec

/-! ### The tables -/

theorem fits_of {specs : List ArgSpec} {A : Arguments} (flags : A.flags = (specs.filter (·.takes = .none)).map ArgSpec.long)
    (values : A.values = specs.flatMap fun a => if a.takes = .one then (a.long :: a.aliases).map fun s => (a.long, s) else [])
    (letters : A.letters = specs.filterMap fun a => a.short.map fun c => (a.long, c))
    (lists : A.lists = (specs.filter (·.takes = .many)).map ArgSpec.long)
    (nodup : (specs.flatMap fun a => a.long :: a.aliases).Nodup) (nodupShort : (specs.filterMap ArgSpec.short).Nodup)
    (aliases : ∀ a ∈ specs, a.takes ≠ .one → a.aliases = []) (short : ∀ a ∈ specs, a.short.isSome → a.takes = .one)
    (names : ∀ a ∈ specs, ∀ n ∈ a.long :: a.aliases, '=' ∉ n ∧ n ≠ []) (dash : ∀ a ∈ specs, a.short ≠ some '-') : Fits specs A where
  flags := flags
  values := by
    intro n s
    rw [values, List.mem_flatMap]
    constructor
    · rintro ⟨a, ha, h⟩
      split at h
      · rename_i ht
        obtain ⟨t, hm, h⟩ := List.mem_map.1 h
        cases h
        exact ⟨a, ha, ht, rfl, hm⟩
      · cases h
    · rintro ⟨a, ha, ht, rfl, hs⟩
      refine ⟨a, ha, ?_⟩
      rw [if_pos ht]
      exact List.mem_map.2 ⟨s, hs, rfl⟩
  letters := letters
  lists := lists
  nodup := nodup
  nodupShort := nodupShort
  aliases := aliases
  short := short
  names := names
  dash := dash

theorem fits_files : Fits filesSpecs filesArguments := by
  apply fits_of <;> decide

theorem fits_commits : Fits commitsSpecs commitsArguments := by
  apply fits_of <;> decide

theorem fits_parse : Fits [{ long := str% "verbose", takes := .none }] parseArguments := by
  apply fits_of <;> decide

theorem fits_server : Fits serverSpecs serverArguments := by
  apply fits_of <;> decide

/-! ### The values -/

theorem methods_iff (s : Str) (m : CompareMethod) : valueEnum CompareMethod.idents s = some m ↔ NamedAs methodNames s m :=
  named_iff (by decide) (by decide) s m

theorem units_iff (s : Str) (m : Dimension) : valueEnum Dimension.idents s = some m ↔ NamedAs unitNames s m :=
  named_iff (by decide) (by decide) s m

theorem changes_iff (s : Str) (m : RelativeChange) : valueEnum RelativeChange.idents s = some m ↔ NamedAs changeNames s m :=
  named_iff (by decide) (by decide) s m

theorem formats_iff (s : Str) (m : OutputFormat) : valueEnum OutputFormat.idents s = some m ↔ NamedAs formatNames s m :=
  named_iff (by decide) (by decide) s m

/-- C86: values are read exactly in the forms that they are written in: thresholds, paths, ports and the names of methods, units, changes and formats. -/
theorem C86_values : (∀ s x, readF64 s = some x ↔ Number s x) ∧ (∀ s p, readPath s = some p ↔ PathText s p) ∧
    (∀ s n, readPort s = some n ↔ PortText s n) ∧ (∀ s m, valueEnum CompareMethod.idents s = some m ↔ NamedAs methodNames s m) ∧
    (∀ s m, valueEnum Dimension.idents s = some m ↔ NamedAs unitNames s m) ∧
    (∀ s m, valueEnum RelativeChange.idents s = some m ↔ NamedAs changeNames s m) ∧
    (∀ s m, valueEnum OutputFormat.idents s = some m ↔ NamedAs formatNames s m) :=
  ⟨readF64_iff, readPath_iff, readPort_iff, methods_iff, units_iff, changes_iff, formats_iff⟩

theorem some_iff (s a : Str) : (fun s : Str => some s) s = some a ↔ s = a := by simp

/-- The two commands that compare. -/
def Compares (A : Arguments) : Prop := A = filesArguments ∨ A = commitsArguments

theorem params_iff {A : Arguments} (hA : Compares A) {g : List Given} {ws : List Str} (h : Written A g ws) (p : CompareParams) :
    paramsGiven (occurs g) = some p ↔ SaysParams g p := by
  have hv : ∀ n, n ∉ filesArguments.flags ++ filesArguments.lists → OnlyValue g n := by
    rintro n hn
    rcases hA with rfl | rfl
    · exact onlyValue h hn
    · exact onlyValue h (fun hm => hn ((show commitsArguments.flags ++ commitsArguments.lists ⊆ filesArguments.flags ++ filesArguments.lists by decide) hm))
  have hf : ∀ n, n ∈ compareFlags → OnlyFlag g n := by
    intro n hn
    rcases hA with rfl | rfl
    · exact onlyFlag h ((show ∀ n ∈ compareFlags, n ∉ filesArguments.values.map Prod.fst ++ filesArguments.letters.map Prod.fst ++ filesArguments.lists by decide) n hn)
    · exact onlyFlag h ((show ∀ n ∈ compareFlags, n ∉ commitsArguments.values.map Prod.fst ++ commitsArguments.letters.map Prod.fst ++ commitsArguments.lists by decide) n hn)
  unfold paramsGiven
  simp only [Option.bind_eq_bind, Option.bind_eq_some_iff, valueReq_iff (hv (str% "method") (by decide)) methods_iff,
    valueOr_iff (hv (str% "unit") (by decide)) units_iff, flagGiven_iff (hf (str% "ignore-errors") (by decide)),
    flagGiven_iff (hf (str% "git-pull") (by decide)), flagGiven_iff (hf (str% "git-force") (by decide)),
    flagGiven_iff (hf (str% "offline") (by decide)), Option.some.injEq]
  constructor
  · rintro ⟨m, h1, u, h2, i, h3, gp, h4, gf, h5, o, h6, rfl⟩
    exact ⟨h1, h2, h3, h4, h5, h6⟩
  · rintro ⟨h1, h2, h3, h4, h5, h6⟩
    exact ⟨_, h1, _, h2, _, h3, _, h4, _, h5, _, h6, rfl⟩

theorem filter_iff {A : Arguments} (hA : Compares A) {g : List Given} {ws : List Str} (h : Written A g ws) (f : FilterParams) :
    filterGiven (occurs g) = some f ↔ SaysFilter g f := by
  have hv : ∀ n, n ∉ filesArguments.flags ++ filesArguments.lists → OnlyValue g n := by
    rintro n hn
    rcases hA with rfl | rfl
    · exact onlyValue h hn
    · exact onlyValue h (fun hm => hn ((show commitsArguments.flags ++ commitsArguments.lists ⊆ filesArguments.flags ++ filesArguments.lists by decide) hm))
  have hl : OnlyList g (str% "change") := by
    rcases hA with rfl | rfl
    · exact onlyList h (by decide)
    · exact onlyList h (by decide)
  have hc : ∀ c : Option (List RelativeChange), changeGiven (occurs g) = some c ↔
      (c = none ∧ ∀ vs, Given.values (str% "change") vs ∉ g) ∨ ∃ cs, c = some cs ∧ Parts g (str% "change") (NamedAs changeNames) cs := by
    intro c
    obtain ⟨h1, h2⟩ := valuesGiven_iff hl
    unfold changeGiven
    cases hg : valuesGiven (occurs g) (str% "change") with
    | none =>
      have hno := h1.1 hg
      have : ∀ cs, ¬ Parts g (str% "change") (NamedAs changeNames) cs := fun cs hp => by
        obtain ⟨⟨vs, hm⟩, -⟩ := hp
        exact hno vs hm
      simp [hno, this, eq_comm]
    | some us =>
      obtain ⟨h3, h4⟩ := (h2 us).1 hg
      have hno : ¬ ∀ vs, Given.values (str% "change") vs ∉ g := fun hn => by
        obtain ⟨vs, hm⟩ := h3
        exact hn vs hm
      dsimp only
      rw [Option.map_eq_some_iff]
      simp only [hno, and_false, false_or, mapM_iff changes_iff, h4, Parts, h3, true_and]
      constructor
      · rintro ⟨a, h5, rfl⟩
        exact ⟨a, rfl, h5⟩
      · rintro ⟨a, rfl, h5⟩
        exact ⟨a, h5, rfl⟩
  unfold filterGiven
  simp only [Option.bind_eq_bind, Option.bind_eq_some_iff, valueOr_iff (hv (str% "threshold") (by decide)) readF64_iff,
    valueOpt_iff (hv (str% "extrinsic") (by decide)), valueOpt_iff (hv (str% "pallet") (by decide)), Option.some.injEq]
  constructor
  · rintro ⟨t, h1, c, h2, e, h3, p, h4, rfl⟩
    exact ⟨h1, (hc c).1 h2, h3, h4⟩
  · rintro ⟨h1, h2, h3, h4⟩
    exact ⟨_, h1, _, (hc _).2 h2, _, h3, _, h4, rfl⟩

theorem format_iff {A : Arguments} (hA : Compares A) {g : List Given} {ws : List Str} (h : Written A g ws) (f : FormatParams) :
    formatGiven (occurs g) = some f ↔ SaysFormat g f := by
  have hv : ∀ n, n ∉ filesArguments.flags ++ filesArguments.lists → OnlyValue g n := by
    rintro n hn
    rcases hA with rfl | rfl
    · exact onlyValue h hn
    · exact onlyValue h (fun hm => hn ((show commitsArguments.flags ++ commitsArguments.lists ⊆ filesArguments.flags ++ filesArguments.lists by decide) hm))
  have hf : ∀ n, n ∈ compareFlags → OnlyFlag g n := by
    intro n hn
    rcases hA with rfl | rfl
    · exact onlyFlag h ((show ∀ n ∈ compareFlags, n ∉ filesArguments.values.map Prod.fst ++ filesArguments.letters.map Prod.fst ++ filesArguments.lists by decide) n hn)
    · exact onlyFlag h ((show ∀ n ∈ compareFlags, n ∉ commitsArguments.values.map Prod.fst ++ commitsArguments.letters.map Prod.fst ++ commitsArguments.lists by decide) n hn)
  unfold formatGiven
  simp only [Option.bind_eq_bind, Option.bind_eq_some_iff, valueOr_iff (hv (str% "format") (by decide)) formats_iff,
    flagGiven_iff (hf (str% "print-terms") (by decide)), flagGiven_iff (hf (str% "no-color") (by decide)),
    valueOpt_iff (hv (str% "strip-path-prefix") (by decide)), Option.some.injEq]
  constructor
  · rintro ⟨m, h1, u, h2, i, h3, gp, h4, rfl⟩
    exact ⟨h1, h2, h3, h4⟩
  · rintro ⟨h1, h2, h3, h4⟩
    exact ⟨_, h1, _, h2, _, h3, _, h4, rfl⟩

/-- A list of values that has to be given. -/
theorem parts_iff {α : Type} {g : List Given} {n : Str} (ht : OnlyList g n) {read : Str → Option α} {Reads : Str → α → Prop}
    (hr : ∀ s a, read s = some a ↔ Reads s a) (as : List α) :
    ((valuesGiven (occurs g) n).bind fun vs => vs.mapM read) = some as ↔ Parts g n Reads as := by
  obtain ⟨-, h2⟩ := valuesGiven_iff ht
  rw [Option.bind_eq_some_iff]
  constructor
  · rintro ⟨us, h3, h4⟩
    obtain ⟨h5, rfl⟩ := (h2 us).1 h3
    exact ⟨h5, (mapM_iff hr _ _).1 h4⟩
  · rintro ⟨h5, h6⟩
    exact ⟨_, (h2 _).2 ⟨h5, rfl⟩, (mapM_iff hr _ _).2 h6⟩

theorem verbose_iff {A : Arguments} (hA : Compares A) {g : List Given} {ws : List Str} (h : Written A g ws) (v : Bool) :
    flagGiven (occurs g) (str% "verbose") = some v ↔ Spec.Flag g (str% "verbose") v := by
  apply flagGiven_iff
  rcases hA with rfl | rfl
  · exact onlyFlag h (by decide)
  · exact onlyFlag h (by decide)

/-! ### The commands -/

theorem filesCmd_iff (args : List Str) (v : Bool) (cmd : Command) : readFilesCmd args = some (v, cmd) ↔
    ∃ g params filter format old new, Written filesArguments g args ∧ SaysFiles g v params filter format old new
      ∧ cmd = .compareFiles params filter format old new := by
  have key : ∀ g, Written filesArguments g args → ∀ v params filter format old new,
      (paramsGiven (occurs g) = some params ∧ filterGiven (occurs g) = some filter ∧ formatGiven (occurs g) = some format
        ∧ ((valuesGiven (occurs g) (str% "old")).bind fun vs => vs.mapM readPath) = some old
        ∧ ((valuesGiven (occurs g) (str% "new")).bind fun vs => vs.mapM readPath) = some new
        ∧ flagGiven (occurs g) (str% "verbose") = some v ∧ words g = []) ↔ SaysFiles g v params filter format old new := by
    intro g hg v params filter format old new
    rw [params_iff (.inl rfl) hg, filter_iff (.inl rfl) hg, format_iff (.inl rfl) hg, parts_iff (onlyList hg (by decide)) readPath_iff,
      parts_iff (onlyList hg (by decide)) readPath_iff, verbose_iff (.inl rfl) hg]
    constructor
    · rintro ⟨h1, h2, h3, h4, h5, h6, h7⟩
      exact ⟨h1, h2, h3, h4, h5, h6, h7⟩
    · rintro ⟨h1, h2, h3, h4, h5, h6, h7⟩
      exact ⟨h1, h2, h3, h4, h5, h6, h7⟩
  unfold readFilesCmd
  constructor
  · intro h
    obtain ⟨⟨l, ps⟩, hs, h⟩ := Option.bind_eq_some_iff.1 h
    obtain ⟨g, hg, rfl, rfl⟩ := (scan_iff fits_files _ _ _).1 hs
    dsimp only at h
    split at h
    · cases h
    rename_i hw
    obtain ⟨params, h1, h⟩ := Option.bind_eq_some_iff.1 h
    obtain ⟨filter, h2, h⟩ := Option.bind_eq_some_iff.1 h
    obtain ⟨format, h3, h⟩ := Option.bind_eq_some_iff.1 h
    obtain ⟨olds, h4, h⟩ := Option.bind_eq_some_iff.1 h
    obtain ⟨old, h5, h⟩ := Option.bind_eq_some_iff.1 h
    obtain ⟨news, h6, h⟩ := Option.bind_eq_some_iff.1 h
    obtain ⟨new, h7, h⟩ := Option.bind_eq_some_iff.1 h
    obtain ⟨v', h8, h⟩ := Option.bind_eq_some_iff.1 h
    cases h
    exact ⟨g, params, filter, format, old, new, hg, (key g hg _ _ _ _ _ _).1 ⟨h1, h2, h3, by rw [h4]; exact h5, by rw [h6]; exact h7, h8, by simpa using hw⟩, rfl⟩
  · rintro ⟨g, params, filter, format, old, new, hg, hsays, rfl⟩
    obtain ⟨h1, h2, h3, h4, h5, h6, h7⟩ := (key g hg _ _ _ _ _ _).2 hsays
    obtain ⟨olds, h8, h9⟩ := Option.bind_eq_some_iff.1 h4
    obtain ⟨news, h10, h11⟩ := Option.bind_eq_some_iff.1 h5
    rw [(scan_iff fits_files _ _ _).2 ⟨g, hg, rfl, rfl⟩]
    simp only [Option.bind_eq_bind, Option.bind_some, h7, ne_eq, not_true_eq_false, if_false, h1, h2, h3, h8, h9, h10, h11, h6, pure]

theorem commitsCmd_iff (args : List Str) (v : Bool) (cmd : Command) : readCommitsCmd args = some (v, cmd) ↔
    ∃ g params filter format old new repo pattern, Written commitsArguments g args
      ∧ SaysCommits g v params filter format old new repo pattern ∧ cmd = .compareCommits params filter format old new repo pattern := by
  unfold readCommitsCmd
  constructor
  · intro h
    obtain ⟨⟨l, ps⟩, hs, h⟩ := Option.bind_eq_some_iff.1 h
    obtain ⟨g, hg, rfl, rfl⟩ := (scan_iff fits_commits _ _ _).1 hs
    dsimp only at h
    obtain ⟨params, h1, h⟩ := Option.bind_eq_some_iff.1 h
    obtain ⟨filter, h2, h⟩ := Option.bind_eq_some_iff.1 h
    obtain ⟨format, h3, h⟩ := Option.bind_eq_some_iff.1 h
    obtain ⟨repo, h4, h⟩ := Option.bind_eq_some_iff.1 h
    obtain ⟨pattern, h5, h⟩ := Option.bind_eq_some_iff.1 h
    obtain ⟨v', h6, h⟩ := Option.bind_eq_some_iff.1 h
    rw [params_iff (.inr rfl) hg] at h1
    rw [filter_iff (.inr rfl) hg] at h2
    rw [format_iff (.inr rfl) hg] at h3
    rw [valueOr_iff (onlyValue hg (by decide)) readPath_iff] at h4
    rw [valueReq_iff (onlyValue hg (by decide)) some_iff] at h5
    rw [verbose_iff (.inr rfl) hg] at h6
    split at h
    · rename_i old hw
      cases h
      exact ⟨g, params, filter, format, old, _, repo, pattern, hg, ⟨h1, h2, h3, h4, h5, h6, .inl ⟨hw, rfl⟩⟩, rfl⟩
    · rename_i old new hw
      cases h
      exact ⟨g, params, filter, format, old, new, repo, pattern, hg, ⟨h1, h2, h3, h4, h5, h6, .inr hw⟩, rfl⟩
    · cases h
  · rintro ⟨g, params, filter, format, old, new, repo, pattern, hg, ⟨h1, h2, h3, h4, h5, h6, h7⟩, rfl⟩
    rw [(scan_iff fits_commits _ _ _).2 ⟨g, hg, rfl, rfl⟩]
    rw [← params_iff (.inr rfl) hg] at h1
    rw [← filter_iff (.inr rfl) hg] at h2
    rw [← format_iff (.inr rfl) hg] at h3
    rw [← valueOr_iff (onlyValue hg (by decide)) readPath_iff] at h4
    rw [← valueReq_iff (onlyValue hg (by decide)) some_iff] at h5
    rw [← verbose_iff (.inr rfl) hg] at h6
    simp only [Option.bind_eq_bind, Option.bind_some, h1, h2, h3, h4, h5, h6]
    rcases h7 with ⟨h7, rfl⟩ | h7 <;> rw [h7]

theorem parseCmd_iff (b : Build) (args : List Str) (v : Bool) (cmd : Command) : readParseCmd b args = some (v, cmd) ↔
    b = .release ∧ ∃ g files, Written parseArguments g args ∧ Spec.Flag g (str% "verbose") v ∧ 0 < (words g).length ∧ (words g).length < 1000
      ∧ List.Forall₂ PathText (words g) files ∧ cmd = .parseFiles files := by
  unfold readParseCmd
  cases b with
  | debug => simp
  | release =>
    simp only [reduceCtorEq, if_false, true_and]
    constructor
    · intro h
      obtain ⟨⟨l, ps⟩, hs, h⟩ := Option.bind_eq_some_iff.1 h
      obtain ⟨g, hg, rfl, rfl⟩ := (scan_iff fits_parse _ _ _).1 hs
      dsimp only at h
      split at h
      · cases h
      rename_i hw
      obtain ⟨v', h1, h⟩ := Option.bind_eq_some_iff.1 h
      obtain ⟨files, h2, h⟩ := Option.bind_eq_some_iff.1 h
      cases h
      rw [not_or, ← ne_eq, ← List.length_pos_iff] at hw
      exact ⟨g, files, hg, (flagGiven_iff (onlyFlag hg (by decide)) _).1 h1, hw.1, by omega, (mapM_iff readPath_iff _ _).1 h2, rfl⟩
    · rintro ⟨g, files, hg, h1, h2, h3, h4, rfl⟩
      rw [(scan_iff fits_parse _ _ _).2 ⟨g, hg, rfl, rfl⟩]
      rw [← flagGiven_iff (onlyFlag hg (by decide))] at h1
      have h5 : ¬ (words g = [] ∨ 999 < (words g).length) := by
        rw [not_or, ← ne_eq, ← List.length_pos_iff]
        omega
      simp only [Option.bind_eq_bind, Option.bind_some, if_neg h5, h1, (mapM_iff readPath_iff _ _).2 h4, pure]

theorem subCommand_iff {names : List Str} (hn : str% "--verbose" ∉ names) (args : List Str) (v : Bool) (n : Str) (rest : List Str) :
    subCommand names args = some (v, n, rest) ↔ n ∈ names ∧ args = maybeVerbose v ++ n :: rest := by
  unfold subCommand
  cases args with
  | nil =>
    constructor
    · intro h; cases h
    · rintro ⟨-, h⟩
      cases v <;> simp [maybeVerbose] at h
  | cons w ws =>
    dsimp only
    by_cases hw : w = str% "--verbose"
    · rw [if_pos hw]
      cases ws with
      | nil =>
        constructor
        · intro h; cases h
        · rintro ⟨h1, h⟩
          cases v with
          | true => simp [maybeVerbose] at h
          | false =>
            simp only [maybeVerbose, Bool.false_eq_true, if_false, List.nil_append, List.cons.injEq] at h
            rw [← h.1, hw] at h1
            exact absurd h1 hn
      | cons m ws =>
        dsimp only
        constructor
        · intro h
          split at h
          · rename_i hm
            cases h
            exact ⟨hm, by rw [hw]; rfl⟩
          · cases h
        · rintro ⟨h1, h⟩
          cases v with
          | true =>
            simp only [maybeVerbose, if_true, List.cons_append, List.nil_append, List.cons.injEq] at h
            obtain ⟨-, rfl, rfl⟩ := h
            rw [if_pos h1]
          | false =>
            simp only [maybeVerbose, Bool.false_eq_true, if_false, List.nil_append, List.cons.injEq] at h
            rw [← h.1, hw] at h1
            exact absurd h1 hn
    · rw [if_neg hw]
      constructor
      · intro h
        split at h
        · rename_i hm
          cases h
          exact ⟨hm, rfl⟩
        · cases h
      · rintro ⟨h1, h⟩
        cases v with
        | true =>
          simp only [maybeVerbose, if_true, List.cons_append, List.nil_append, List.cons.injEq] at h
          exact absurd h.1 hw
        | false =>
          simp only [maybeVerbose, Bool.false_eq_true, if_false, List.nil_append, List.cons.injEq] at h
          obtain ⟨rfl, rfl⟩ := h
          rw [if_pos h1]

/-- The line of a command: the names of the command, with `--verbose` in front of either of them, and its arguments. -/
def CommandWords (group verb : Str) (v : Bool) (args rest : List Str) (v' : Bool) : Prop :=
  ∃ v1 v2, args = maybeVerbose v1 ++ group :: (maybeVerbose v2 ++ verb :: rest) ∧ v = (v1 || v2 || v')

theorem commandLine_iff (b : Build) (args : List Str) (v : Bool) (cmd : Command) : readCommandLine b args = some (v, cmd) ↔
    (∃ rest v', CommandWords (str% "compare") (str% "files") v args rest v' ∧ readFilesCmd rest = some (v', cmd)) ∨
    (∃ rest v', CommandWords (str% "compare") (str% "commits") v args rest v' ∧ readCommitsCmd rest = some (v', cmd)) ∨
    ∃ rest v', CommandWords (str% "parse") (str% "files") v args rest v' ∧ readParseCmd b rest = some (v', cmd) := by
  unfold readCommandLine readVerb
  constructor
  · intro h
    obtain ⟨⟨v1, group, args1⟩, h1, h⟩ := Option.bind_eq_some_iff.1 h
    obtain ⟨⟨v2, verb, args2⟩, h2, h⟩ := Option.bind_eq_some_iff.1 h
    obtain ⟨⟨v3, cmd'⟩, h3, h⟩ := Option.bind_eq_some_iff.1 h
    cases h
    obtain ⟨h4, rfl⟩ := (subCommand_iff (by decide) _ _ _ _).1 h1
    simp only [List.mem_cons, List.not_mem_nil, or_false] at h4
    rcases h4 with rfl | rfl
    · rw [if_pos rfl] at h2 h3
      obtain ⟨h5, rfl⟩ := (subCommand_iff (by decide) _ _ _ _).1 h2
      simp only [List.mem_cons, List.not_mem_nil, or_false] at h5
      rcases h5 with rfl | rfl
      · rw [if_pos rfl] at h3
        exact .inl ⟨_, _, ⟨v1, v2, rfl, rfl⟩, h3⟩
      · rw [if_neg (by decide)] at h3
        exact .inr (.inl ⟨_, _, ⟨v1, v2, rfl, rfl⟩, h3⟩)
    · rw [if_neg (by decide)] at h2 h3
      obtain ⟨h5, rfl⟩ := (subCommand_iff (by decide) _ _ _ _).1 h2
      simp only [List.mem_cons, List.not_mem_nil, or_false] at h5
      subst h5
      exact .inr (.inr ⟨_, _, ⟨v1, v2, rfl, rfl⟩, h3⟩)
  · rintro (⟨rest, v', ⟨v1, v2, rfl, rfl⟩, h⟩ | ⟨rest, v', ⟨v1, v2, rfl, rfl⟩, h⟩ | ⟨rest, v', ⟨v1, v2, rfl, rfl⟩, h⟩)
    · rw [(subCommand_iff (by decide) _ v1 (str% "compare") _).2 ⟨by decide, rfl⟩]
      simp only [Option.bind_eq_bind, Option.bind_some, if_true]
      rw [(subCommand_iff (by decide) _ v2 (str% "files") _).2 ⟨by decide, rfl⟩]
      simp only [Option.bind_some, if_true, h]
    · rw [(subCommand_iff (by decide) _ v1 (str% "compare") _).2 ⟨by decide, rfl⟩]
      simp only [Option.bind_eq_bind, Option.bind_some, if_true]
      rw [(subCommand_iff (by decide) _ v2 (str% "commits") _).2 ⟨by decide, rfl⟩]
      simp only [Option.bind_some]
      rw [if_neg (by decide), h]
      rfl
    · rw [(subCommand_iff (by decide) _ v1 (str% "parse") _).2 ⟨by decide, rfl⟩]
      simp only [Option.bind_eq_bind, Option.bind_some]
      rw [if_neg (by decide), (subCommand_iff (by decide) _ v2 (str% "files") _).2 ⟨by decide, rfl⟩]
      simp only [Option.bind_some]
      rw [if_neg (by decide), h]
      rfl

/-- C86: the line asks to compare these files in this way exactly if its arguments are written like that. -/
theorem C86_files (b : Build) (args : List Str) (v : Bool) (params : CompareParams) (filter : FilterParams) (format : FormatParams)
    (old new : List Path) : readCommandLine b args = some (v, .compareFiles params filter format old new) ↔
      ∃ v1 v2 v3 rest g, args = maybeVerbose v1 ++ str% "compare" :: (maybeVerbose v2 ++ str% "files" :: rest) ∧ v = (v1 || v2 || v3)
        ∧ Written filesArguments g rest ∧ SaysFiles g v3 params filter format old new := by
  rw [commandLine_iff]
  constructor
  · rintro (⟨rest, v3, ⟨v1, v2, h1, h2⟩, h⟩ | ⟨rest, v3, -, h⟩ | ⟨rest, v3, -, h⟩)
    · obtain ⟨g, _, _, _, _, _, hg, hs, h⟩ := (filesCmd_iff _ _ _).1 h
      cases h
      exact ⟨v1, v2, v3, rest, g, h1, h2, hg, hs⟩
    · obtain ⟨g, _, _, _, _, _, _, _, hg, hs, h⟩ := (commitsCmd_iff _ _ _).1 h
      cases h
    · obtain ⟨-, g, _, _, _, _, _, _, h⟩ := (parseCmd_iff _ _ _ _).1 h
      cases h
  · rintro ⟨v1, v2, v3, rest, g, h1, h2, hg, hs⟩
    exact .inl ⟨rest, v3, ⟨v1, v2, h1, h2⟩, (filesCmd_iff _ _ _).2 ⟨g, _, _, _, _, _, hg, hs, rfl⟩⟩

/-- C86: … to compare these revisions … -/
theorem C86_commits (b : Build) (args : List Str) (v : Bool) (params : CompareParams) (filter : FilterParams) (format : FormatParams)
    (old new : Str) (repo : Path) (pattern : Str) :
    readCommandLine b args = some (v, .compareCommits params filter format old new repo pattern) ↔
      ∃ v1 v2 v3 rest g, args = maybeVerbose v1 ++ str% "compare" :: (maybeVerbose v2 ++ str% "commits" :: rest) ∧ v = (v1 || v2 || v3)
        ∧ Written commitsArguments g rest ∧ SaysCommits g v3 params filter format old new repo pattern := by
  rw [commandLine_iff]
  constructor
  · rintro (⟨rest, v3, -, h⟩ | ⟨rest, v3, ⟨v1, v2, h1, h2⟩, h⟩ | ⟨rest, v3, -, h⟩)
    · obtain ⟨g, _, _, _, _, _, hg, hs, h⟩ := (filesCmd_iff _ _ _).1 h
      cases h
    · obtain ⟨g, _, _, _, _, _, _, _, hg, hs, h⟩ := (commitsCmd_iff _ _ _).1 h
      cases h
      exact ⟨v1, v2, v3, rest, g, h1, h2, hg, hs⟩
    · obtain ⟨-, g, _, _, _, _, _, _, h⟩ := (parseCmd_iff _ _ _ _).1 h
      cases h
  · rintro ⟨v1, v2, v3, rest, g, h1, h2, hg, hs⟩
    exact .inr (.inl ⟨rest, v3, ⟨v1, v2, h1, h2⟩, (commitsCmd_iff _ _ _).2 ⟨g, _, _, _, _, _, _, _, hg, hs, rfl⟩⟩)

/-- C86: … to parse these files (in release builds only; a debug build has ended the program before). -/
theorem C86_parse (b : Build) (args : List Str) (v : Bool) (files : List Path) :
    readCommandLine b args = some (v, .parseFiles files) ↔ b = .release ∧
      ∃ v1 v2 v3 rest g, args = maybeVerbose v1 ++ str% "parse" :: (maybeVerbose v2 ++ str% "files" :: rest) ∧ v = (v1 || v2 || v3)
        ∧ Written parseArguments g rest ∧ Spec.Flag g (str% "verbose") v3 ∧ 0 < (words g).length ∧ (words g).length < 1000
        ∧ List.Forall₂ PathText (words g) files := by
  rw [commandLine_iff]
  constructor
  · rintro (⟨rest, v3, -, h⟩ | ⟨rest, v3, -, h⟩ | ⟨rest, v3, ⟨v1, v2, h1, h2⟩, h⟩)
    · obtain ⟨g, _, _, _, _, _, hg, hs, h⟩ := (filesCmd_iff _ _ _).1 h
      cases h
    · obtain ⟨g, _, _, _, _, _, _, _, hg, hs, h⟩ := (commitsCmd_iff _ _ _).1 h
      cases h
    · obtain ⟨hb, g, _, hg, h3, h4, h5, h6, h⟩ := (parseCmd_iff _ _ _ _).1 h
      cases h
      exact ⟨hb, v1, v2, v3, rest, g, h1, h2, hg, h3, h4, h5, h6⟩
  · rintro ⟨hb, v1, v2, v3, rest, g, h1, h2, hg, h3, h4, h5, h6⟩
    exact .inr (.inr ⟨rest, v3, ⟨v1, v2, h1, h2⟩, (parseCmd_iff _ _ _ _).2 ⟨hb, g, _, hg, h3, h4, h5, h6, rfl⟩⟩)

/-- C86: the server understands exactly the lines that write down its options. -/
theorem C86_server (args : List Str) (c : ServerCmd) : readServerLine args = some c ↔
    ∃ g, Written serverArguments g args ∧ SaysServer g c := by
  have hboth : ∀ a b : Option Str, ¬ (a.isSome ≠ b.isSome) ↔ (a = none ↔ b = none) := by
    intro a b
    cases a <;> cases b <;> simp
  have hrepos : ∀ g, Written serverArguments g args → ∀ l : List Str, (valuesGiven (occurs g) (str% "repos")).getD [str% "polkadot"] = l ↔
      ((∀ vs, Given.values (str% "repos") vs ∉ g) ∧ l = [str% "polkadot"] ∨ Parts g (str% "repos") Eq l) := by
    intro g hg l
    obtain ⟨h1, h2⟩ := valuesGiven_iff (onlyList hg (n := str% "repos") (by decide))
    cases hv : valuesGiven (occurs g) (str% "repos") with
    | none =>
      have hno := h1.1 hv
      have : ¬ Parts g (str% "repos") Eq l := fun ⟨⟨vs, hm⟩, _⟩ => hno vs hm
      simp [hno, this, eq_comm]
    | some us =>
      obtain ⟨h3, h4⟩ := (h2 us).1 hv
      have hno : ¬ ∀ vs, Given.values (str% "repos") vs ∉ g := fun hn => by
        obtain ⟨vs, hm⟩ := h3
        exact hn vs hm
      simp only [Option.getD_some, hno, false_and, false_or, Parts, h3, true_and, List.forall₂_eq_eq_eq, h4]
  unfold readServerLine
  constructor
  · intro h
    obtain ⟨⟨l, ps⟩, hs, h⟩ := Option.bind_eq_some_iff.1 h
    obtain ⟨g, hg, rfl, rfl⟩ := (scan_iff fits_server _ _ _).1 hs
    dsimp only at h
    split at h
    · cases h
    rename_i hw
    obtain ⟨root, h1, h⟩ := Option.bind_eq_some_iff.1 h
    obtain ⟨static, h2, h⟩ := Option.bind_eq_some_iff.1 h
    obtain ⟨endpoint, h3, h⟩ := Option.bind_eq_some_iff.1 h
    obtain ⟨port, h4, h⟩ := Option.bind_eq_some_iff.1 h
    obtain ⟨cert, h5, h⟩ := Option.bind_eq_some_iff.1 h
    obtain ⟨key, h6, h⟩ := Option.bind_eq_some_iff.1 h
    split at h
    · cases h
    rename_i hck
    cases h
    exact ⟨g, hg, {
      root := (valueOr_iff (onlyValue hg (by decide)) readPath_iff _ _).1 h1
      static := (valueOr_iff (onlyValue hg (by decide)) readPath_iff _ _).1 h2
      repos := (hrepos g hg _).1 rfl
      endpoint := (valueOr_iff (onlyValue hg (by decide)) some_iff _ _).1 h3
      port := (valueOr_iff (onlyValue hg (by decide)) readPort_iff _ _).1 h4
      cert := (valueOpt_iff (onlyValue hg (by decide)) _).1 h5
      key := (valueOpt_iff (onlyValue hg (by decide)) _).1 h6
      both := (hboth _ _).1 hck
      words := by simpa using hw }⟩
  · rintro ⟨g, hg, h⟩
    rw [(scan_iff fits_server _ _ _).2 ⟨g, hg, rfl, rfl⟩]
    have h1 := (valueOr_iff (onlyValue hg (by decide)) readPath_iff _ _).2 h.root
    have h2 := (valueOr_iff (onlyValue hg (by decide)) readPath_iff _ _).2 h.static
    have h3 := (valueOr_iff (onlyValue hg (by decide)) some_iff _ _).2 h.endpoint
    have h4 := (valueOr_iff (onlyValue hg (by decide)) readPort_iff _ _).2 h.port
    have h5 := (valueOpt_iff (onlyValue hg (by decide)) _).2 h.cert
    have h6 := (valueOpt_iff (onlyValue hg (by decide)) _).2 h.key
    have h7 := (hboth _ _).2 h.both
    have h8 := (hrepos g hg _).2 h.repos
    simp only [Option.bind_eq_bind, Option.bind_some, h.words, ne_eq, not_true_eq_false, if_false, h1, h2, h3, h4, h5, h6, if_neg h7, h8, pure]

/-! ### The order of what is given -/

/-- The same things are given, possibly in another order; words stay in order, and so do the values of each list. -/
structure SameGiven (g g' : List Given) : Prop where
  perm : g.Perm g'
  words : words g = words g'
  listed : ∀ n, listed n g = listed n g'

theorem SameGiven.symm {g g' : List Given} (h : SameGiven g g') : SameGiven g' g := ⟨h.perm.symm, h.words.symm, fun n => (h.listed n).symm⟩

theorem SameGiven.once {g g' : List Given} (h : SameGiven g g') {n : Str} (ho : AtMostOnce g n) : AtMostOnce g' n := by
  unfold AtMostOnce at *
  rwa [← h.perm.countP_eq]

theorem SameGiven.flag {g g' : List Given} (h : SameGiven g g') {n : Str} {b : Bool} (hf : Spec.Flag g n b) : Spec.Flag g' n b :=
  ⟨h.once hf.1, by rw [← h.perm.mem_iff]; exact hf.2⟩

theorem SameGiven.value {g g' : List Given} (h : SameGiven g g') {α : Type} {n : Str} {d : Option Str} {R : Str → α → Prop} {a : α}
    (hv : Value g n d R a) : Value g' n d R a := by
  refine ⟨h.once hv.1, ?_⟩
  have hm : ∀ x, x ∈ g' ↔ x ∈ g := fun x => h.perm.mem_iff.symm
  simp only [hm]
  exact hv.2

theorem SameGiven.optional {g g' : List Given} (h : SameGiven g g') {n : Str} {o : Option Str} (hv : Optional g n o) : Optional g' n o := by
  refine ⟨h.once hv.1, ?_⟩
  have hm : ∀ x, x ∈ g' ↔ x ∈ g := fun x => h.perm.mem_iff.symm
  simp only [hm]
  exact hv.2

theorem SameGiven.parts {g g' : List Given} (h : SameGiven g g') {α : Type} {n : Str} {R : Str → α → Prop} {as : List α}
    (hv : Parts g n R as) : Parts g' n R as := by
  obtain ⟨⟨vs, hm⟩, hl⟩ := hv
  exact ⟨⟨vs, h.perm.mem_iff.1 hm⟩, by rw [← h.listed]; exact hl⟩

theorem SameGiven.params {g g' : List Given} (h : SameGiven g g') {p : CompareParams} (hs : SaysParams g p) : SaysParams g' p :=
  ⟨h.value hs.1, h.value hs.2, h.flag hs.3, h.flag hs.4, h.flag hs.5, h.flag hs.6⟩

theorem SameGiven.filter {g g' : List Given} (h : SameGiven g g') {f : FilterParams} (hs : SaysFilter g f) : SaysFilter g' f := by
  refine ⟨h.value hs.1, ?_, h.optional hs.3, h.optional hs.4⟩
  rcases hs.2 with ⟨h1, h2⟩ | ⟨cs, h1, h2⟩
  · exact .inl ⟨h1, fun vs hm => h2 vs (h.perm.mem_iff.2 hm)⟩
  · exact .inr ⟨cs, h1, h.parts h2⟩

theorem SameGiven.format {g g' : List Given} (h : SameGiven g g') {f : FormatParams} (hs : SaysFormat g f) : SaysFormat g' f :=
  ⟨h.value hs.1, h.flag hs.2, h.flag hs.3, h.optional hs.4⟩

/-- C86: neither the order of the options nor the way in which they are spelled matters: two lines that give the same mean the same. -/
theorem C86_order {g g' : List Given} (h : SameGiven g g') {ws ws' : List Str} :
    (Written filesArguments g ws → Written filesArguments g' ws' → readFilesCmd ws = readFilesCmd ws') ∧
    (Written commitsArguments g ws → Written commitsArguments g' ws' → readCommitsCmd ws = readCommitsCmd ws') := by
  have files : ∀ {g g' ws ws'}, SameGiven g g' → Written filesArguments g ws → Written filesArguments g' ws' → ∀ r, readFilesCmd ws = some r →
      readFilesCmd ws' = some r := by
    rintro g g' ws ws' h hg hg' ⟨v, cmd⟩ hr
    obtain ⟨k, params, filter, format, old, new, hk, hs, rfl⟩ := (filesCmd_iff _ _ _).1 hr
    have e := (scan_iff fits_files ws (occurs g) (words g)).2 ⟨g, hg, rfl, rfl⟩
    have e' := (scan_iff fits_files ws (occurs k) (words k)).2 ⟨k, hk, rfl, rfl⟩
    have h1 : readFilesCmd ws = some (v, .compareFiles params filter format old new) := hr
    have hs' : SaysFiles g v params filter format old new := by
      rw [e] at e'
      obtain ⟨ho, hw⟩ := Prod.mk.inj (Option.some.inj e')
      obtain ⟨h1, h2, h3, h4, h5, h6, h7⟩ := hs
      rw [← params_iff (.inl rfl) hk, ← ho, params_iff (.inl rfl) hg] at h1
      rw [← filter_iff (.inl rfl) hk, ← ho, filter_iff (.inl rfl) hg] at h2
      rw [← format_iff (.inl rfl) hk, ← ho, format_iff (.inl rfl) hg] at h3
      rw [← parts_iff (onlyList hk (by decide)) readPath_iff, ← ho, parts_iff (onlyList hg (by decide)) readPath_iff] at h4 h5
      rw [← verbose_iff (.inl rfl) hk, ← ho, verbose_iff (.inl rfl) hg] at h6
      exact ⟨h1, h2, h3, h4, h5, h6, hw.trans h7⟩
    obtain ⟨h1, h2, h3, h4, h5, h6, h7⟩ := hs'
    exact (filesCmd_iff _ _ _).2 ⟨g', params, filter, format, old, new, hg', ⟨h.params h1, h.filter h2, h.format h3, h.parts h4, h.parts h5,
      h.flag h6, h.words.symm.trans h7⟩, rfl⟩
  have commits : ∀ {g g' ws ws'}, SameGiven g g' → Written commitsArguments g ws → Written commitsArguments g' ws' → ∀ r,
      readCommitsCmd ws = some r → readCommitsCmd ws' = some r := by
    rintro g g' ws ws' h hg hg' ⟨v, cmd⟩ hr
    obtain ⟨k, params, filter, format, old, new, repo, pattern, hk, hs, rfl⟩ := (commitsCmd_iff _ _ _).1 hr
    have e := (scan_iff fits_commits ws (occurs g) (words g)).2 ⟨g, hg, rfl, rfl⟩
    have e' := (scan_iff fits_commits ws (occurs k) (words k)).2 ⟨k, hk, rfl, rfl⟩
    have hs' : SaysCommits g v params filter format old new repo pattern := by
      rw [e] at e'
      obtain ⟨ho, hw⟩ := Prod.mk.inj (Option.some.inj e')
      obtain ⟨h1, h2, h3, h4, h5, h6, h7⟩ := hs
      rw [← params_iff (.inr rfl) hk, ← ho, params_iff (.inr rfl) hg] at h1
      rw [← filter_iff (.inr rfl) hk, ← ho, filter_iff (.inr rfl) hg] at h2
      rw [← format_iff (.inr rfl) hk, ← ho, format_iff (.inr rfl) hg] at h3
      rw [← valueOr_iff (onlyValue hk (by decide)) readPath_iff, ← ho, valueOr_iff (onlyValue hg (by decide)) readPath_iff] at h4
      rw [← valueReq_iff (onlyValue hk (by decide)) some_iff, ← ho, valueReq_iff (onlyValue hg (by decide)) some_iff] at h5
      rw [← verbose_iff (.inr rfl) hk, ← ho, verbose_iff (.inr rfl) hg] at h6
      exact ⟨h1, h2, h3, h4, h5, h6, by rw [hw]; exact h7⟩
    obtain ⟨h1, h2, h3, h4, h5, h6, h7⟩ := hs'
    exact (commitsCmd_iff _ _ _).2 ⟨g', params, filter, format, old, new, repo, pattern, hg', ⟨h.params h1, h.filter h2, h.format h3, h.value h4,
      h.value h5, h.flag h6, by rw [← h.words]; exact h7⟩, rfl⟩
  constructor
  · intro hg hg'
    apply Option.ext
    intro r
    exact ⟨files h hg hg' r, files h.symm hg' hg r⟩
  · intro hg hg'
    apply Option.ext
    intro r
    exact ⟨commits h hg hg' r, commits h.symm hg' hg r⟩

/-! ### From the command line to what is shown -/

theorem bind_ret_ok {W : World} {α β : Type} (m : Act W α) (f : α → β) (s s' : Run W) (y : β) :
    (do let x ← m; Act.ret (f x) : Act W β) s = (.ok y, s') ↔ ∃ x, m s = (.ok x, s') ∧ y = f x := by
  show Act.andThen m (fun x => Act.ret (f x)) s = _ ↔ _
  unfold Act.andThen Act.ret
  cases hm : m s with
  | mk r s1 =>
    cases r with
    | ok x =>
      simp only [Prod.mk.injEq, Res.ok.injEq]
      constructor
      · rintro ⟨rfl, rfl⟩
        exact ⟨x, ⟨rfl, rfl⟩, rfl⟩
      · rintro ⟨x', ⟨rfl, rfl⟩, rfl⟩
        exact ⟨rfl, rfl⟩
    | err m => simp
    | panic => simp
    | diverge => simp

theorem main_iff {W : World} (b : Build) (ho : HashOrder) (rx : RegexEngine) (env : Env) (penv : PrintEnv) (args : List Str) (s s' : Run W)
    (r : Shown ⊕ Str × Str) : cliMain b ho rx env penv args s = (.ok (some r), s') ↔
      ∃ v cmd, readCommandLine b args = some (v, cmd) ∧ cmd.run b ho rx env penv s = (.ok r, s') := by
  unfold cliMain
  cases hr : readCommandLine b args with
  | none =>
    constructor
    · intro h
      cases h
    · rintro ⟨v, cmd, h, -⟩
      cases h
  | some vc =>
    obtain ⟨v, cmd⟩ := vc
    dsimp only
    rw [bind_ret_ok]
    constructor
    · rintro ⟨x, h1, h2⟩
      cases h2
      exact ⟨v, cmd, rfl, h1⟩
    · rintro ⟨v', cmd', h1, h2⟩
      cases h1
      exact ⟨r, h2, rfl⟩

/-- C86: from the command line to the table: `subweight compare commits …` shows a comparison exactly if its arguments are written properly, and the two
revisions that they name can be checked out one after the other in the repository that they name, and be compared with the options given. -/
theorem C86_revisions {W : World} (b : Build) (ho : HashOrder) (rx : RegexEngine) (env : Env) (penv : PrintEnv) (rest : List Str) (s s' : Run W)
    (shown : Shown) : cliMain b ho rx env penv (str% "compare" :: str% "commits" :: rest) s = (.ok (some (.inl shown)), s') ↔
      ∃ g v params filter format old new repo pattern, Written commitsArguments g rest ∧ SaysCommits g v params filter format old new repo pattern ∧
        ¬ DotDot pattern ∧ ∃ ps G1 s1 files1 olds G2 s2 files2 news diff, Pieces pattern ps
          ∧ CheckedOut W old params.shouldPull params.gitForce s.state G1 s1
          ∧ Listed W s1 repo pattern (2 ^ 64 - 1) files1 ∧ ParsedAs W env repo params.ignoreErrors s1 files1 olds
          ∧ CheckedOut W new params.shouldPull params.gitForce s1 G2 s2
          ∧ Listed W s2 repo pattern (2 ^ 64 - 1) files2 ∧ ParsedAs W env repo params.ignoreErrors s2 files2 news
          ∧ compareFiles b ho rx olds news params filter = .ok diff ∧ showDiff penv format filter params.unit diff = .ok shown
          ∧ s'.state = s2
          ∧ s'.log = s.log ++ G1 ++ globs repo ps ++ [.parse files1] ++ G2 ++ globs repo ps ++ [.parse files2] := by
  rw [main_iff]
  constructor
  · rintro ⟨v, cmd, hr, hrun⟩
    have hr' : readCommitsCmd rest = some (v, cmd) := by
      have e : readCommandLine b (str% "compare" :: str% "commits" :: rest) = (readCommitsCmd rest).bind fun p => some (p.1, p.2) := rfl
      rw [e] at hr
      obtain ⟨p, h1, h2⟩ := Option.bind_eq_some_iff.1 hr
      rw [h1, ← h2]
    obtain ⟨g, params, filter, format, old, new, repo, pattern, hg, hs, rfl⟩ := (commitsCmd_iff _ _ _).1 hr'
    obtain ⟨x, h1, h2⟩ := (bind_ret_ok _ _ _ _ _).1 hrun
    cases h2
    exact ⟨g, v, params, filter, format, old, new, repo, pattern, hg, hs, (C76_commits ..).1 h1⟩
  · rintro ⟨g, v, params, filter, format, old, new, repo, pattern, hg, hs, h⟩
    refine ⟨_, _, (C86_commits ..).2 ⟨false, false, v, rest, g, rfl, rfl, hg, hs⟩, ?_⟩
    exact (bind_ret_ok _ _ _ _ _).2 ⟨_, (C76_commits ..).2 h, rfl⟩

/-- C86: `subweight compare files …` shows a comparison exactly if its arguments are written properly, and the files that they name can be read and
compared with the options given.  It leaves the world alone. -/
theorem C86_file_lists {W : World} (b : Build) (ho : HashOrder) (rx : RegexEngine) (env : Env) (penv : PrintEnv) (rest : List Str) (s s' : Run W)
    (shown : Shown) : cliMain b ho rx env penv (str% "compare" :: str% "files" :: rest) s = (.ok (some (.inl shown)), s') ↔
      s' = s ∧ ∃ g v params filter format old new, Written filesArguments g rest ∧ SaysFiles g v params filter format old new ∧
        ∃ olds news diff, ReadFiles env (W.fs s.state) params.ignoreErrors old olds ∧ ReadFiles env (W.fs s.state) params.ignoreErrors new news
          ∧ compareFiles b ho rx olds news params filter = .ok diff ∧ showDiff penv format filter params.unit diff = .ok shown := by
  rw [main_iff]
  have hmap : ∀ (r : Res Shown), r.map (Sum.inl (β := Str × Str)) = .ok (.inl shown) ↔ r = .ok shown := by
    intro r
    cases r <;> simp [Res.map]
  constructor
  · rintro ⟨v, cmd, hr, hrun⟩
    have hr' : readFilesCmd rest = some (v, cmd) := by
      have e : readCommandLine b (str% "compare" :: str% "files" :: rest) = (readFilesCmd rest).bind fun p => some (p.1, p.2) := rfl
      rw [e] at hr
      obtain ⟨p, h1, h2⟩ := Option.bind_eq_some_iff.1 hr
      rw [h1, ← h2]
    obtain ⟨g, params, filter, format, old, new, hg, hs, rfl⟩ := (filesCmd_iff _ _ _).1 hr'
    obtain ⟨h1, h2⟩ := Prod.mk.inj hrun
    exact ⟨h2.symm, g, v, params, filter, format, old, new, hg, hs, (C76_files ..).1 ((hmap _).1 h1)⟩
  · rintro ⟨rfl, g, v, params, filter, format, old, new, hg, hs, h⟩
    refine ⟨_, _, (C86_files ..).2 ⟨false, false, v, rest, g, rfl, rfl, hg, hs⟩, ?_⟩
    exact Prod.ext ((hmap _).2 ((C76_files ..).2 h)) rfl

/-- C86, against the text: two of the formats offered are never shown, whatever is compared. -/
theorem C86_false_formats (penv : PrintEnv) (f : FormatParams) (filter : FilterParams) (unit : Dimension) (diff : List ExtrinsicDiff)
    (h : f.format = .json ∨ f.format = .briefHuman) : showDiff penv f filter unit diff = .err (str% "Unsupported output format") := by
  unfold showDiff printChanges
  rcases h with h | h <;> rw [h]

/-! ### Examples -/

/-- The command line of the test `subweight_compare_commits_works` (`cli/tests/swc_works.rs:30-46`). -/
def exCommitsLine : List Str :=
  [str% "compare", str% "commits", str% "--method", str% "base", str% "--path-pattern", str% "runtime/polkadot/src/weights/*.rs", str% "v0.9.19",
    str% "v0.9.20", str% "--repo", str% "/x/repos/polkadot"]

/-- What it gives. -/
def exCommitsGiven : List Given :=
  [.value (str% "method") (str% "base"), .value (str% "path-pattern") (str% "runtime/polkadot/src/weights/*.rs"), .word (str% "v0.9.19"),
    .word (str% "v0.9.20"), .value (str% "repo") (str% "/x/repos/polkadot")]

theorem not_dashed {c : Char} {r : Str} (h : c ≠ '-') : ¬ Dashed (c :: r) := by
  rintro ⟨d, s, e⟩
  cases e
  exact h rfl

theorem exCommits_written : Written commitsArguments exCommitsGiven (exCommitsLine.drop 2) :=
  .value (by decide) (not_dashed (by decide)) (.value (by decide) (not_dashed (by decide)) (.word (not_dashed (by decide))
    (.word (not_dashed (by decide)) (.value (by decide) (not_dashed (by decide)) .done))))

/-- … and what that means. -/
def exCommitsCommand : Command :=
  .compareCommits ⟨.base, .time, false, false, false, false⟩ ⟨F64.rnd 5, none, none, none⟩ ⟨.human, false, false, none⟩ (str% "v0.9.19")
    (str% "v0.9.20") [.root, .normal (str% "x"), .normal (str% "repos"), .normal (str% "polkadot")] (str% "runtime/polkadot/src/weights/*.rs")

theorem exCommits_read : readCommandLine .debug exCommitsLine = some (false, exCommitsCommand) := by
  have h : readF64 (str% "5") = some (F64.rnd 5) := by
    rw [readF64_iff]
    have := Magnitude.whole (i := str% "5") (x := []) (by decide) (by decide) .none
    have e : ((digitsValue (str% "5") : ℕ) : ℚ) * (10 : ℚ) ^ (0 : ℤ) = 5 := by
      rw [show digitsValue (str% "5") = 5 by decide]
      norm_num
    rw [e] at this
    exact .plain this
  have e : readCommandLine .debug exCommitsLine = ((readF64 (str% "5")).bind fun x => some (false,
      Command.compareCommits ⟨.base, .time, false, false, false, false⟩ ⟨x, none, none, none⟩ ⟨.human, false, false, none⟩ (str% "v0.9.19")
    (str% "v0.9.20") [.root, .normal (str% "x"), .normal (str% "repos"), .normal (str% "polkadot")] (str% "runtime/polkadot/src/weights/*.rs"))) := by
    rfl
  rw [e, h]
  rfl

/-- Whether the tool accepts a line. -/
def accepts (b : Build) (args : List Str) : Bool := (readCommandLine b args).isSome

-- The same in another order and with other spellings.
example : readCommitsCmd (exCommitsLine.drop 2) = readCommitsCmd [str% "--repo=/x/repos/polkadot", str% "v0.9.19", str% "-mbase", str% "v0.9.20",
    str% "--path-pattern", str% "runtime/polkadot/src/weights/*.rs"] :=
  (C86_order (g := exCommitsGiven) (g' := [.value (str% "repo") (str% "/x/repos/polkadot"), .word (str% "v0.9.19"), .value (str% "method") (str% "base"),
    .word (str% "v0.9.20"), .value (str% "path-pattern") (str% "runtime/polkadot/src/weights/*.rs")])
    ⟨by decide, by decide, fun n => by simp [listed, exCommitsGiven]⟩).2 exCommits_written
    (.valueEq (s := str% "repo") (by decide) (.word (not_dashed (by decide)) (.letterJoined (c := 'm') (v := str% "base") (by decide) (by decide)
      (by decide) (.word (not_dashed (by decide)) (.value (by decide) (not_dashed (by decide)) .done)))))

example : Number (str% "-2.50e1") (F64.neg (F64.rnd 25)) := by
  have := Magnitude.point (i := str% "2") (f := str% "50") (x := str% "e1") (by decide) (by decide) (by decide) (.plain (.inl rfl) (by decide) (by decide))
  have e : ((digitsValue (str% "2") : ℕ) + (digitsValue (str% "50") : ℕ) / (10 : ℚ) ^ (str% "50").length) * (10 : ℚ) ^ ((digitsValue (str% "1") : ℕ) : ℤ) = 25 := by
    rw [show digitsValue (str% "2") = 2 by decide, show digitsValue (str% "50") = 50 by decide, show digitsValue (str% "1") = 1 by decide]
    norm_num
  rw [e] at this
  exact .minus this

example : PathText (str% "../a//b/./c") [.parent, .normal (str% "a"), .normal (str% "b"), .normal (str% "c")] :=
  (readPath_iff _ _).1 (by decide)

-- The line of `subweight_compare_files_works`, `--format json`, and lines that are refused: no method, two methods, a negative threshold as a word of its
-- own (but not after `=`), a list that swallows the revision, a second value after `=`, an unknown option.
example : accepts .debug [str% "compare", str% "files", str% "--method", str% "base", str% "--old", str% "a.rs", str% "--new", str% "b.rs",
    str% "--threshold", str% "0"] = true := by decide +kernel
example : accepts .debug [str% "compare", str% "files", str% "--method", str% "base", str% "--old", str% "a.rs", str% "--new", str% "b.rs",
    str% "--format", str% "json"] = true := by decide +kernel
example : accepts .debug [str% "compare", str% "files", str% "--old", str% "a.rs", str% "--new", str% "b.rs"] = false := by decide +kernel
example : accepts .debug [str% "compare", str% "files", str% "--method", str% "base", str% "-m", str% "base", str% "--old", str% "--new"] = false := by
  decide +kernel
example : accepts .debug [str% "compare", str% "files", str% "--method", str% "base", str% "--old", str% "--new", str% "--threshold", str% "-5"] = false := by
  decide +kernel
example : accepts .debug [str% "compare", str% "files", str% "--method", str% "base", str% "--old", str% "--new", str% "--threshold=-5"] = true := by
  decide +kernel
example : accepts .debug [str% "compare", str% "commits", str% "--method", str% "base", str% "--path-pattern", str% "*", str% "--change", str% "added",
    str% "v1"] = false := by decide +kernel
example : accepts .debug [str% "compare", str% "commits", str% "--method", str% "base", str% "--path-pattern", str% "*", str% "--change", str% "added",
    str% "--", str% "v1"] = true := by decide +kernel
example : accepts .debug [str% "compare", str% "files", str% "--method", str% "base", str% "--old=a", str% "b", str% "--new"] = false := by decide +kernel
example : accepts .debug [str% "compare", str% "files", str% "--method", str% "base", str% "--old", str% "--new", str% "--thresh", str% "1"] = false := by
  decide +kernel

-- The threshold may be no number.
example : readF64 (str% "NaN") = some .nan := by decide +kernel

/-- C86, against the text: `parse files` is offered, but in a debug build no line leads to it. -/
theorem C86_false_parse (args : List Str) (v : Bool) (files : List Path) : readCommandLine .debug args ≠ some (v, .parseFiles files) := by
  intro h
  cases ((C86_parse _ _ _ _).1 h).1

example : ((readCommandLine .release [str% "parse", str% "--verbose", str% "files", str% "a.rs"]).map fun p => (p.1, match p.2 with
    | .parseFiles l => l
    | _ => [])) = some (true, [[.normal (str% "a.rs")]]) := by decide +kernel

example : (readServerLine [str% "--root", str% "repos/", str% "-p80", str% "--repos", str% "polkadot", str% "substrate"]).map
    (fun c => (c.root, c.static, c.repos)) = some ([.normal (str% "repos")], [.normal (str% "web"), .normal (str% "static")],
      [str% "polkadot", str% "substrate"]) := by decide +kernel
example : (readServerLine [str% "--root", str% "repos/", str% "-p80", str% "--repos", str% "polkadot", str% "substrate"]).map
    (fun c => (c.endpoint, c.port, c.cert)) = some (str% "127.0.0.1", 80, none) := by decide +kernel
example : (readServerLine [str% "--cert", str% "c.pem"]).isSome = false := by decide +kernel
example : (readServerLine [str% "--port", str% "65536"]).isSome = false := by decide +kernel

/-- The rows of the table that a line shows in the world of the examples. -/
def exShown (args : List Str) : Option (List (List Str)) :=
  match (cliMain (W := exWorld) .debug idOrder exRegex exEnv exPrintEnv args ⟨str% "start", []⟩).1 with
  | .ok (some (.inl (.table t _))) => some t.rows
  | _ => none

example : exShown [str% "compare", str% "commits", str% "-m", str% "base", str% "v1", str% "v2", str% "--repo", str% "r", str% "--path-pattern=*",
    str% "--threshold", str% "0", str% "--no-color"] =
      some [[str% "w.rs", str% "transfer", str% "10ps", str% "20ps", str% "+100.00"], [str% "a.rs", str% "transfer", str% "10ps", str% "20ps", str% "+100.00"]] := by
  decide +kernel

end Swc
