/-
C76: the commands of the tool read the files they are given and show the comparison of what is in them.
C77: the git commands of the web server.
C62, C40: listing branches, and not fetching, on the server.
-/
import Verif.Spec.Commands
import Verif.Props.CliOut
import Verif.Props.ParseFile
import Verif.Props.Git
import Verif.Props.Failure
import Verif.Props.Path
import Verif.Props.BranchText
import Verif.Props.WebRun

namespace Swc

open Spec

/-! ### Files on the command line -/

theorem parseFile_named (env : Env) (fs : Fs) {dir : Path} {name : Str} {content : Str} (h : fs (dir ++ [.normal name]) = .ok content) :
    parseFile env fs (dir ++ [.normal name]) = withFile (dir ++ [.normal name]) (parseContent env.syn env.cc name content) := by
  rw [parseFile, readFile, h, Res.bind_ok, ((C53_file_name [.cur] _).1 name).2 ⟨dir, rfl⟩, Res.bind_ok]

theorem parseFile_nameless (env : Env) (fs : Fs) {p : Path} {content : Str} (h : fs p = .ok content) (hp : ¬ ∃ dir name, p = dir ++ [.normal name]) :
    parseFile env fs p = .panic := by
  rw [parseFile, readFile, h, Res.bind_ok]
  cases hs : PathStripping.fileName.strip [.cur] p with
  | ok name => obtain ⟨dir, hd⟩ := ((C53_file_name [.cur] p).1 name).1 hs; exact absurd ⟨dir, name, hd⟩ hp
  | err e => simp only [PathStripping.strip, Res.unwrap] at hs; split at hs <;> cases hs
  | panic => rfl
  | diverge => simp only [PathStripping.strip, Res.unwrap] at hs; split at hs <;> cases hs

theorem last_normal {dir dir' : Path} {name name' : Str} (h : dir ++ [Comp.normal name] = dir' ++ [.normal name']) : dir = dir' ∧ name = name' := by
  have := List.append_inj' h rfl
  exact ⟨this.1, by injection this.2 with h; injection h⟩

theorem parseFile_ok (env : Env) (fs : Fs) (p : Path) (x : List ChromaticExtrinsic) : parseFile env fs p = .ok x ↔ ReadFile env fs p x := by
  unfold ReadFile UnderstoodFile
  cases hf : fs p with
  | error e => simp [parseFile, readFile, hf]
  | ok c =>
    by_cases hp : ∃ dir name, p = dir ++ [.normal name]
    · obtain ⟨dir, name, rfl⟩ := hp
      have key : parseFile env fs (dir ++ [.normal name]) = .ok x ↔ parseContent env.syn env.cc name c = .ok x := by
        rw [parseFile_named env fs hf]; cases parseContent env.syn env.cc name c <;> simp [withFile]
      rw [key, C108_file]
      constructor
      · rintro ⟨pre, i, post, h⟩; exact ⟨dir, name, rfl, c, pre, i, post, rfl, h⟩
      · rintro ⟨dir', name', h, c', pre, i, post, hc, h'⟩
        cases hc
        obtain ⟨rfl, rfl⟩ := last_normal h
        exact ⟨pre, i, post, h'⟩
    · rw [parseFile_nameless env fs hf hp]
      constructor
      · intro h; cases h
      · rintro ⟨dir, name, h, -⟩; exact absurd ⟨dir, name, h⟩ hp

theorem parseFile_err (env : Env) (fs : Fs) (p : Path) (m : Str) : parseFile env fs p = .err m ↔ Unreadable env fs p m := by
  unfold Unreadable
  cases hf : fs p with
  | error e => simp [parseFile, readFile, hf, NotParsed, eq_comm]
  | ok c =>
    by_cases hp : ∃ dir name, p = dir ++ [.normal name]
    · have : (∀ content, Except.ok (ε := Str) c = .ok content → ∃ dir name, p = dir ++ [.normal name]) := fun _ _ => hp
      obtain ⟨dir, name, rfl⟩ := hp
      rw [parseFile_named env fs hf, content_notParsed hf, and_iff_left this]
    · rw [parseFile_nameless env fs hf hp]
      constructor
      · intro h; cases h
      · rintro ⟨-, h⟩; exact absurd (h c rfl) hp

theorem parseFile_panic (env : Env) (fs : Fs) (p : Path) :
    parseFile env fs p = .panic ↔ FatalFile env fs p ∨ ((∃ c, fs p = .ok c) ∧ ¬ ∃ dir name, p = dir ++ [.normal name]) := by
  unfold FatalFile
  cases hf : fs p with
  | error e => simp [parseFile, readFile, hf]
  | ok c =>
    by_cases hp : ∃ dir name, p = dir ++ [.normal name]
    · have : ¬ ((∃ c', Except.ok (ε := Str) c = .ok c') ∧ ¬ ∃ dir name, p = dir ++ [.normal name]) := fun h => h.2 hp
      obtain ⟨dir, name, rfl⟩ := hp
      rw [parseFile_named env fs hf, withFile_panic, C108_file_fatal, or_iff_left this]
      simp
    · rw [parseFile_nameless env fs hf hp]
      simp [hp]

theorem readFiles_iff (env : Env) (fs : Fs) (ign : Bool) (l : List Path) (r : List ChromaticExtrinsic) :
    (if ign then tryParseFiles env fs l else parseFiles env fs l) = .ok r ↔ ReadFiles env fs ign l r := by
  unfold ReadFiles tryParseFiles parseFiles
  cases ign with
  | true =>
    rw [if_pos rfl, tryParseAll_ok]
    simp only [parseFile_ok, parseFile_err, true_and]
  | false =>
    rw [if_neg (by decide), C49_all]
    simp [parseFile_ok]

theorem cliCompareFiles_eq (b : Build) (ho : HashOrder) (rx : RegexEngine) (env : Env) (penv : PrintEnv) (fs : Fs) (params : CompareParams)
    (filter : FilterParams) (f : FormatParams) (old new : List Path) :
    cliCompareFiles b ho rx env penv fs params filter f old new =
      ((if params.ignoreErrors then tryParseFiles env fs old else parseFiles env fs old) >>= fun olds =>
        (if params.ignoreErrors then tryParseFiles env fs new else parseFiles env fs new) >>= fun news =>
          compareFiles b ho rx olds news params filter >>= fun diff => showDiff penv f filter params.unit diff) := by
  unfold cliCompareFiles
  cases params.ignoreErrors <;> rfl

/-- C76: `compare files` succeeds exactly if the old and then the new files can be read (with `--ignore-errors`, those that can) and the calls
in them can be compared; it then shows the comparison, in the unit asked for. -/
theorem C76_files (b : Build) (ho : HashOrder) (rx : RegexEngine) (env : Env) (penv : PrintEnv) (fs : Fs) (params : CompareParams)
    (filter : FilterParams) (f : FormatParams) (old new : List Path) (shown : Shown) :
    cliCompareFiles b ho rx env penv fs params filter f old new = .ok shown ↔
      ∃ olds news diff, ReadFiles env fs params.ignoreErrors old olds ∧ ReadFiles env fs params.ignoreErrors new news
        ∧ compareFiles b ho rx olds news params filter = .ok diff ∧ showDiff penv f filter params.unit diff = .ok shown := by
  rw [cliCompareFiles_eq]
  constructor
  · intro h
    obtain ⟨olds, h1, h⟩ := bind_eq_ok h
    obtain ⟨news, h2, h⟩ := bind_eq_ok h
    obtain ⟨diff, h3, h⟩ := bind_eq_ok h
    exact ⟨olds, news, diff, (readFiles_iff _ _ _ _ _).1 h1, (readFiles_iff _ _ _ _ _).1 h2, h3, h⟩
  · rintro ⟨olds, news, diff, h1, h2, h3, h4⟩
    rw [(readFiles_iff _ _ _ _ _).2 h1, Res.bind_ok, (readFiles_iff _ _ _ _ _).2 h2, Res.bind_ok, h3, Res.bind_ok, h4]

theorem parseFiles_err (env : Env) (fs : Fs) (l : List Path) (m : Str) : parseFiles env fs l = .err m ↔ FirstUnreadable env fs l m := by
  unfold parseFiles FirstUnreadable
  rw [C49_first_error]
  simp only [parseFile_ok, parseFile_err]

/-- C76: unless errors are ignored, the first file that cannot be read ends the command with its message, the old files before the new. -/
theorem C76_files_error (b : Build) (ho : HashOrder) (rx : RegexEngine) (env : Env) (penv : PrintEnv) (fs : Fs) (params : CompareParams)
    (filter : FilterParams) (f : FormatParams) (old new : List Path) (m : Str) (hi : params.ignoreErrors = false)
    (h : FirstUnreadable env fs old m ∨ (∃ olds, ReadFiles env fs false old olds) ∧ FirstUnreadable env fs new m) :
    cliCompareFiles b ho rx env penv fs params filter f old new = .err m := by
  rw [cliCompareFiles_eq, hi]
  rcases h with h | ⟨⟨olds, h1⟩, h⟩
  · simp only [Bool.false_eq_true, if_false]
    rw [(parseFiles_err _ _ _ _).2 h, Res.bind_err]
  · rw [(readFiles_iff env fs false old olds).2 h1, Res.bind_ok]
    simp only [Bool.false_eq_true, if_false]
    rw [(parseFiles_err _ _ _ _).2 h, Res.bind_err]

/-- C76: `compare commits` succeeds exactly if the revisions can be checked out one after the other and compared as in C41, with no limit on
the number of files (other than what fits in memory), and shows the comparison. -/
theorem C76_commits {W : World} (b : Build) (ho : HashOrder) (rx : RegexEngine) (env : Env) (penv : PrintEnv) (repo : Path) (old new : Str)
    (params : CompareParams) (filter : FilterParams) (f : FormatParams) (pattern : Str) (s s' : Run W) (shown : Shown) :
    cliCompareCommits b ho rx env penv repo old new params filter f pattern s = (.ok shown, s') ↔
      ¬ DotDot pattern ∧ ∃ ps G1 s1 files1 olds G2 s2 files2 news diff, Pieces pattern ps
        ∧ CheckedOut W old params.shouldPull params.gitForce s.state G1 s1
        ∧ Listed W s1 repo pattern (2 ^ 64 - 1) files1 ∧ ParsedAs W env repo params.ignoreErrors s1 files1 olds
        ∧ CheckedOut W new params.shouldPull params.gitForce s1 G2 s2
        ∧ Listed W s2 repo pattern (2 ^ 64 - 1) files2 ∧ ParsedAs W env repo params.ignoreErrors s2 files2 news
        ∧ compareFiles b ho rx olds news params filter = .ok diff ∧ showDiff penv f filter params.unit diff = .ok shown
        ∧ s'.state = s2
        ∧ s'.log = s.log ++ G1 ++ globs repo ps ++ [.parse files1] ++ G2 ++ globs repo ps ++ [.parse files2] := by
  unfold cliCompareCommits
  rw [Act.bind_ok]
  constructor
  · rintro ⟨diff, s0, h, h'⟩
    obtain ⟨hd, ps, G1, s1, files1, olds, G2, s2, files2, news, h1, h2, h3, h4, h5, h6, h7, h8, h9, h10⟩ :=
      (C41_compare_commits b ho rx env repo old new params filter pattern usizeMax s s0 diff).1 h
    rw [Act.lift_run] at h'
    obtain ⟨h11, rfl⟩ := Prod.mk.inj h'
    exact ⟨hd, ps, G1, s1, files1, olds, G2, s2, files2, news, diff, h1, h2, h3, h4, h5, h6, h7, h8, h11, h9, h10⟩
  · rintro ⟨hd, ps, G1, s1, files1, olds, G2, s2, files2, news, diff, h1, h2, h3, h4, h5, h6, h7, h8, h9, h10, h11⟩
    refine ⟨diff, s', (C41_compare_commits b ho rx env repo old new params filter pattern usizeMax s s' diff).2
      ⟨hd, ps, G1, s1, files1, olds, G2, s2, files2, news, h1, h2, h3, h4, h5, h6, h7, h8, h10, h11⟩, ?_⟩
    rw [Act.lift_run, h9]

/-- C76: `parse files` announces the number of files.  It succeeds exactly if all of them can be read, and then reports the number of *calls* in
them as the number of files. -/
theorem C76_parse (env : Env) (fs : Fs) (files : List Path) :
    (cliParseFiles env fs files).1 = str% "Trying to parse " ++ natToStr files.length ++ str% " files..." ∧
    (∀ t, (cliParseFiles env fs files).2 = .ok t ↔ ∃ exts, ReadFiles env fs false files exts ∧
      t = str% "Parsed " ++ natToStr exts.length ++ str% " files successfully") ∧
    (∀ m, (cliParseFiles env fs files).2 = .err m ↔ FirstUnreadable env fs files m) := by
  refine ⟨rfl, fun t => ?_, fun m => ?_⟩
  · rw [cliParseFiles]
    constructor
    · intro h
      obtain ⟨exts, h1, h⟩ := bind_eq_ok h
      cases h
      exact ⟨exts, (readFiles_iff env fs false files exts).1 h1, rfl⟩
    · rintro ⟨exts, h1, rfl⟩
      have := (readFiles_iff env fs false files exts).2 h1
      simp only [Bool.false_eq_true, if_false] at this
      simp only [this, Res.bind_ok]
  · rw [cliParseFiles, ← parseFiles_err]
    dsimp only
    cases parseFiles env fs files <;> simp

/-! ### The git commands of a program -/

theorem onlyGit_bind {α β : Type} {Q : List Str → Prop} {p : Prog α} {f : α → Prog β} (hp : OnlyGit Q p) (hf : ∀ a, OnlyGit Q (f a)) :
    OnlyGit Q (p >>= f) := by
  show OnlyGit Q (p.andThen f)
  induction p with
  | done r =>
    cases r with
    | ok a => exact hf a
    | err m => trivial
    | panic => trivial
    | diverge => trivial
  | git args k ih => exact ⟨hp.1, fun o => ih o (hp.2 o)⟩
  | glob p k ih => exact fun o => ih o (hp o)
  | read p k ih => exact fun o => ih o (hp o)

theorem onlyGit_gitP {Q : List Str → Prop} {args : List Str} (h : Q args) : OnlyGit Q (gitP args) := ⟨h, fun _ => trivial⟩

theorem onlyGit_step {α : Type} {W : World} {Q : List Str → Prop} {p p' : Prog α} {s s' : W.State} (hp : OnlyGit Q p)
    (h : p.step W s = some (p', s')) : OnlyGit Q p' := by
  cases p with
  | done r => cases h
  | git args k => cases h; exact hp.2 _
  | glob p k => cases h; exact hp _
  | read p k => cases h; exact hp _

theorem onlyGit_mapErr {α : Type} {Q : List Str → Prop} {f : Str → Str} {p : Prog α} (hp : OnlyGit Q p) : OnlyGit Q (p.mapErr f) := by
  induction p with
  | done r => trivial
  | git args k ih => exact ⟨hp.1, fun o => ih o (hp.2 o)⟩
  | glob p k ih => exact fun o => ih o (hp o)
  | read p k ih => exact fun o => ih o (hp o)

theorem onlyGit_mono {α : Type} {Q R : List Str → Prop} (h : ∀ a, Q a → R a) {p : Prog α} (hp : OnlyGit Q p) : OnlyGit R p := by
  induction p with
  | done r => trivial
  | git args k ih => exact ⟨h _ hp.1, fun o => ih o (hp.2 o)⟩
  | glob p k ih => exact fun o => ih o (hp o)
  | read p k ih => exact fun o => ih o (hp o)

theorem onlyGit_commands {α : Type} {W : World} {Q : List Str → Prop} {p : Prog α} (hp : OnlyGit Q p) (s : W.State) :
    ∀ args ∈ gitCommands W p s, Q args := by
  induction p generalizing s with
  | done r => intro args h; cases h
  | git args k ih =>
    intro a h
    rcases List.mem_cons.1 h with rfl | h
    · exact hp.1
    · exact ih _ (hp.2 _) _ a h
  | glob p k ih => exact ih _ (hp _) _
  | read p k ih => exact ih _ (hp _) _

theorem onlyGit_listLoop {Q : List Str → Prop} (base : Path) (n : Nat) (rs : List Str) (acc : List Path) : OnlyGit Q (listLoopP base n rs acc) := by
  induction rs generalizing acc with
  | nil => trivial
  | cons r rs ih =>
    rw [listLoopP]
    refine onlyGit_bind (fun o => ?_) fun files => ?_
    · cases o <;> trivial
    · dsimp only
      split
      · trivial
      · exact ih _

theorem onlyGit_listFiles {Q : List Str → Prop} (base : Path) (pattern : Str) (n : Nat) : OnlyGit Q (listFilesP base pattern n) :=
  onlyGit_bind (onlyGit_listLoop _ _ _ _) fun _ => trivial

theorem onlyGit_parse {Q : List Str → Prop} (env : Env) (repo : Path) (ign : Bool) (l : List Path) : OnlyGit Q (parseListedP env repo ign l) := by
  unfold parseListedP
  split
  · induction l with
    | nil => trivial
    | cons p l ih => exact onlyGit_bind (fun _ => trivial) fun _ => onlyGit_bind ih fun _ => trivial
  · induction l with
    | nil => trivial
    | cons p l ih => exact onlyGit_bind (fun _ => trivial) fun _ => onlyGit_bind ih fun _ => trivial

theorem onlyGit_reset {Q : List Str → Prop} (rev : Str) (pull : Bool) (hf : pull = true → Q [str% "fetch", str% "origin", rev])
    (h1 : Q [str% "reset", str% "--hard", str% "origin/" ++ rev]) (h2 : Q [str% "reset", str% "--hard", rev]) :
    OnlyGit Q (gitCheckoutP rev pull true) := by
  unfold gitCheckoutP
  rw [if_pos rfl]
  have tail : OnlyGit Q (do
      let out ← gitP [str% "reset", str% "--hard", str% "origin/" ++ rev]
      match out with
      | .exited true _ _ _ => pure ()
      | _ => do
        let out ← gitP [str% "reset", str% "--hard", rev]
        .done (expectSuccess (str% "Failed to reset branch") out) : Prog Unit) := by
    refine onlyGit_bind (onlyGit_gitP h1) fun o => ?_
    split
    · trivial
    · exact onlyGit_bind (onlyGit_gitP h2) fun _ => trivial
  unfold gitResetP
  cases pull with
  | true => exact onlyGit_bind (onlyGit_bind (onlyGit_gitP (hf rfl)) fun _ => trivial) fun _ => tail
  | false => exact tail

theorem doCompare_git (srv : Server) (ho : HashOrder) (a : CompareArgs) :
    OnlyGit (CompareGit (a.gitPull ≠ some false) (trim a.old) (trim a.new)) (doCompare srv ho a) := by
  unfold doCompare
  split
  · trivial
  · refine onlyGit_bind ?_ fun _ => trivial
    have hp : (webParams a).shouldPull = true → a.gitPull ≠ some false := by
      unfold webParams CompareParams.shouldPull
      intro h h'
      rw [h'] at h
      simp at h
    unfold compareCommitsP
    split
    · trivial
    · refine onlyGit_bind (onlyGit_mapErr (onlyGit_reset _ _ (fun h => ⟨_, .inl rfl, .inl ⟨hp h, rfl⟩⟩) ⟨_, .inl rfl, .inr (.inl rfl)⟩
        ⟨_, .inl rfl, .inr (.inr rfl)⟩)) fun _ => ?_
      refine onlyGit_bind (onlyGit_listFiles _ _ _) fun _ => onlyGit_bind (onlyGit_parse _ _ _ _) fun _ => ?_
      refine onlyGit_bind (onlyGit_mapErr (onlyGit_reset _ _ (fun h => ⟨_, .inr rfl, .inl ⟨hp h, rfl⟩⟩) ⟨_, .inr rfl, .inr (.inl rfl)⟩
        ⟨_, .inr rfl, .inr (.inr rfl)⟩)) fun _ => ?_
      exact onlyGit_bind (onlyGit_listFiles _ _ _) fun _ => onlyGit_bind (onlyGit_parse _ _ _ _) fun _ => trivial

theorem branches_git (srv : Server) (r : Str) (f : Bool) : OnlyGit (BranchGit (f = true)) (branchesP srv r f) := by
  unfold branchesP
  split
  · trivial
  · refine onlyGit_bind ?_ fun _ => onlyGit_bind (onlyGit_gitP (.inr rfl)) fun _ => onlyGit_bind trivial fun _ => trivial
    unfold fetchP
    split
    · rename_i h
      exact onlyGit_bind (onlyGit_gitP (.inl ⟨h, rfl⟩)) fun _ => trivial
    · trivial

/-- C77: running a comparison alone issues only the git commands allowed for its revisions. -/
theorem C77_commands (W : World) (srv : Server) (ho : HashOrder) (a : CompareArgs) (s : W.State) :
    ∀ args ∈ gitCommands W (doCompare srv ho a) s, CompareGit (a.gitPull ≠ some false) (trim a.old) (trim a.new) args :=
  onlyGit_commands (doCompare_git srv ho a) s

/-- C40 on the server: a request with `git_pull=false` fetches nothing. -/
theorem C40_web (W : World) (srv : Server) (ho : HashOrder) (a : CompareArgs) (h : a.gitPull = some false) (s : W.State) :
    ∀ args ∈ gitCommands W (doCompare srv ho a) s, args.head? = some (str% "reset") := by
  intro args ha
  obtain ⟨rev, _, ⟨hp, _⟩ | rfl | rfl⟩ := C77_commands W srv ho a s args ha
  · exact absurd h hp
  · rfl
  · rfl

/-- What is known of the programs of the requests. -/
def KnownGit {σ : Type} : Pc σ → Prop
  | .running a _ _ p => OnlyGit (CompareGit (a.gitPull ≠ some false) (trim a.old) (trim a.new)) p
  | .branching _ p => ∃ f, OnlyGit (BranchGit f) p
  | _ => True

theorem knownGit_step {W : World} {srv : Server} {id : Nat} {pc pc' : Pc W.State} {s s' : Shared W.State} (h : Act1 W srv id pc s pc' s')
    (hk : KnownGit pc) : KnownGit pc' := by
  cases h with
  | permit ho h => exact doCompare_git _ _ _
  | work h => exact onlyGit_step hk h
  | branchTake h => exact ⟨_, branches_git _ _ _⟩
  | branchWork h => exact hk.imp fun _ hk => onlyGit_step hk h
  | @scanEnd next i s hi => cases next <;> trivial
  | _ => trivial

theorem knownGit {W : World} {srv : Server} {c : Config W.State} (h : Reachable W srv c) : ∀ (i : Nat) pc, c.threads[i]? = some pc → KnownGit pc := by
  induction h with
  | init repo clock => intro i pc h; simp [initial] at h
  | @step c c' _ hs ih =>
    intro i pc h
    cases hs with
    | tick n => exact ih i pc h
    | arrive r =>
      dsimp only at h
      rw [List.getElem?_append] at h
      split at h
      · exact ih i pc h
      · rw [List.getElem?_singleton] at h
        split at h
        · cases h; cases r <;> trivial
        · cases h
    | thread j hj =>
      obtain ⟨pc0, pc', s', h0, ha, rfl⟩ := hj
      dsimp only at h
      rw [List.getElem?_set] at h
      split at h
      · split at h
        · cases h; exact knownGit_step ha (ih _ _ h0)
        · cases h
      · exact ih i pc h

/-- C77: in every state that the server can reach, whatever requests arrive and however they interleave: a git command about to be issued
fetches or resets to one of the two revisions of the comparison it belongs to, or belongs to a listing of branches. -/
theorem C77_server {W : World} {srv : Server} {c : Config W.State} (h : Reachable W srv c) (i : Nat) (args : List Str) :
    (∀ a ho st k, c.threads[i]? = some (.running a ho st (.git args k)) → CompareGit (a.gitPull ≠ some false) (trim a.old) (trim a.new) args) ∧
    (∀ r k, c.threads[i]? = some (.branching r (.git args k)) → BranchGit True args) := by
  refine ⟨fun a ho st k hi => ?_, fun r k hi => ?_⟩
  · exact (knownGit h i _ hi).1
  · obtain ⟨f, hf⟩ := knownGit h i _ hi
    exact hf.1.imp (fun h => ⟨trivial, h.2⟩) id

/-! ### Listing branches -/

theorem parseBranches_noErr (t m : Str) : parseBranches t ≠ .err m := by
  intro h
  obtain ⟨bs, hb⟩ := (C62_panics_iff t).2 (by rw [h]; exact fun h => nomatch h)
  rw [hb] at h; cases h

theorem branches_run {W : World} {srv : Server} {repo : Str} {path : Path} (hk : srv.repos repo = some path) (fetch : Bool) (s : W.State) :
    (branchesP srv repo fetch).run W s = match (fetchP fetch).run W s with
      | (.ok _, s0) => ((expectListed (W.git s0 [str% "ls-remote", str% "--tags", str% "--heads"]).1 >>= parseBranches),
          (W.git s0 [str% "ls-remote", str% "--tags", str% "--heads"]).2)
      | (.err m, s0) => (.err m, s0)
      | (.panic, s0) => (.panic, s0)
      | (.diverge, s0) => (.diverge, s0) := by
  unfold branchesP
  rw [hk]
  dsimp only
  rw [Prog.run_bind]
  cases hf : (fetchP fetch).run W s with
  | mk r s0 =>
    cases r with
    | ok u =>
      show Prog.run W (Prog.andThen _ _) s0 = _
      simp only [gitP, Prog.andThen, Prog.run]
      generalize W.git s0 _ = g
      obtain ⟨o, s1⟩ := g
      cases hl : expectListed o with
      | ok t => rfl
      | err m => rfl
      | panic => rfl
      | diverge => rfl
    | err m => rfl
    | panic => rfl
    | diverge => rfl

theorem fetchP_ok {W : World} (fetch : Bool) (s s0 : W.State) : (fetchP fetch).run W s = (.ok (), s0) ↔ FetchedAll W fetch s s0 := by
  unfold FetchedAll Succeeds Success
  cases fetch with
  | false =>
    constructor
    · intro h; cases h; exact .inl ⟨rfl, rfl⟩
    · rintro (⟨_, rfl⟩ | ⟨h, _⟩)
      · rfl
      · cases h
  | true =>
    rw [show (fetchP true).run W s = (expectFetched (W.git s [str% "fetch", str% "--all", str% "--prune", str% "--tags"]).1,
      (W.git s [str% "fetch", str% "--all", str% "--prune", str% "--tags"]).2) from rfl]
    generalize W.git s [str% "fetch", str% "--all", str% "--prune", str% "--tags"] = g
    obtain ⟨o, s1⟩ := g
    dsimp only
    constructor
    · intro h
      obtain ⟨h1, rfl⟩ := Prod.mk.inj h
      refine .inr ⟨rfl, _, o, rfl, ?_, rfl⟩
      unfold expectFetched at h1
      split at h1
      · cases h1
      · split at h1 <;> cases h1
      · exact ⟨_, _, _, rfl⟩
    · rintro (⟨h, _⟩ | ⟨_, _, out, h, ⟨_, _, _, rfl⟩, _⟩)
      · cases h
      · cases h; rfl

theorem fetchP_err {W : World} (fetch : Bool) (s s0 : W.State) (m : Str) : (fetchP fetch).run W s = (.err m, s0) ↔
    fetch = true ∧ ∃ e started, Refuses W s [str% "fetch", str% "--all", str% "--prune", str% "--tags"] e started true s0
      ∧ m = str% "Failed to fetch branches: '" ++ e ++ str% "'" := by
  unfold Refuses
  cases fetch with
  | false =>
    constructor
    · intro h; cases h
    · rintro ⟨h, _⟩; cases h
  | true =>
    rw [show (fetchP true).run W s = (expectFetched (W.git s [str% "fetch", str% "--all", str% "--prune", str% "--tags"]).1,
      (W.git s [str% "fetch", str% "--all", str% "--prune", str% "--tags"]).2) from rfl]
    generalize W.git s [str% "fetch", str% "--all", str% "--prune", str% "--tags"] = g
    obtain ⟨o, s1⟩ := g
    dsimp only
    constructor
    · intro h
      obtain ⟨h1, rfl⟩ := Prod.mk.inj h
      refine ⟨rfl, ?_⟩
      unfold expectFetched at h1
      split at h1
      · cases h1; exact ⟨_, false, .inl ⟨rfl, rfl, rfl⟩, rfl⟩
      · split at h1
        · rename_i hu; cases h1; subst hu; exact ⟨_, true, .inr ⟨rfl, _, rfl⟩, rfl⟩
        · cases h1
      · cases h1
    · rintro ⟨_, e, st, ⟨_, _, h⟩ | ⟨_, _, h⟩, rfl⟩ <;> cases h <;> rfl

theorem fetchP_panic {W : World} (fetch : Bool) (s s0 : W.State) : (fetchP fetch).run W s = (.panic, s0) ↔
    fetch = true ∧ ∃ e, Refuses W s [str% "fetch", str% "--all", str% "--prune", str% "--tags"] e true false s0 := by
  unfold Refuses
  cases fetch with
  | false =>
    constructor
    · intro h; cases h
    · rintro ⟨h, _⟩; cases h
  | true =>
    rw [show (fetchP true).run W s = (expectFetched (W.git s [str% "fetch", str% "--all", str% "--prune", str% "--tags"]).1,
      (W.git s [str% "fetch", str% "--all", str% "--prune", str% "--tags"]).2) from rfl]
    generalize W.git s [str% "fetch", str% "--all", str% "--prune", str% "--tags"] = g
    obtain ⟨o, s1⟩ := g
    dsimp only
    constructor
    · intro h
      obtain ⟨h1, rfl⟩ := Prod.mk.inj h
      refine ⟨rfl, ?_⟩
      unfold expectFetched at h1
      split at h1
      · cases h1
      · split at h1
        · cases h1
        · rename_i hu; exact ⟨_, .inr ⟨rfl, _, by rw [Bool.not_eq_true] at hu; rw [hu]⟩⟩
      · cases h1
    · rintro ⟨_, e, ⟨h, _⟩ | ⟨_, _, h⟩⟩
      · cases h
      · cases h; rfl

theorem fetchP_halts {W : World} (fetch : Bool) (s : W.State) : ((fetchP fetch).run W s).1 ≠ .diverge := by
  cases fetch with
  | false => exact fun h => nomatch h
  | true =>
    show (Prog.run W (Prog.andThen _ _) s).1 ≠ _
    simp only [gitP, Prog.andThen, Prog.run]
    generalize W.git s _ = g
    unfold expectFetched
    split
    · exact fun h => nomatch h
    · split <;> exact fun h => nomatch h
    · exact fun h => nomatch h

/-- C62, the whole handler: branches are listed exactly if everything asked for was done by git and its output is understood. -/
theorem C62_answer {W : World} {srv : Server} {repo : Str} {path : Path} (hk : srv.repos repo = some path) (fetch : Bool) (s s' : W.State)
    (bs : List (Str × Str)) :
    (branchesP srv repo fetch).run W s = (.ok bs, s') ↔ ∃ s0 stdout stderr utf8, FetchedAll W fetch s s0 ∧
      W.git s0 [str% "ls-remote", str% "--tags", str% "--heads"] = (.exited true stdout stderr utf8, s') ∧ Lists stdout bs := by
  simp only [← (C62_exact _).1]
  rw [branches_run hk]
  constructor
  · intro h
    cases hf : (fetchP fetch).run W s with
    | mk r s0 =>
      rw [hf] at h
      cases r with
      | err m => cases h
      | panic => cases h
      | diverge => cases h
      | ok u =>
        dsimp only at h
        obtain ⟨h1, h2⟩ := Prod.mk.inj h
        obtain ⟨t, ht, hp⟩ := bind_eq_ok h1
        unfold expectListed at ht
        split at ht
        · cases ht
        · split at ht <;> cases ht
        · rename_i stdout stderr utf8 ho
          cases ht
          exact ⟨s0, t, stderr, utf8, (fetchP_ok _ _ _).1 hf, Prod.ext ho h2, hp⟩
  · rintro ⟨s0, stdout, stderr, utf8, h1, h2, h3⟩
    rw [(fetchP_ok _ _ _).2 h1]
    dsimp only
    rw [h2]
    exact Prod.ext h3 rfl

/-- C62: an error is answered exactly if git refuses what was asked, with its reason. -/
theorem C62_answer_error {W : World} {srv : Server} {repo : Str} {path : Path} (hk : srv.repos repo = some path) (fetch : Bool) (s s' : W.State)
    (m : Str) :
    (branchesP srv repo fetch).run W s = (.err m, s') ↔
      (fetch = true ∧ ∃ e started, Refuses W s [str% "fetch", str% "--all", str% "--prune", str% "--tags"] e started true s'
        ∧ m = str% "Failed to fetch branches: '" ++ e ++ str% "'") ∨
      ∃ s0 e started, FetchedAll W fetch s s0 ∧ Refuses W s0 [str% "ls-remote", str% "--tags", str% "--heads"] e started true s' ∧
        m = (if started then str% "Failed to list branches: " else []) ++ e := by
  rw [branches_run hk, ← fetchP_err]
  constructor
  · intro h
    cases hf : (fetchP fetch).run W s with
    | mk r s0 =>
      rw [hf] at h
      cases r with
      | err m => exact .inl (by cases h; rfl)
      | panic => cases h
      | diverge => cases h
      | ok u =>
        dsimp only at h
        obtain ⟨h1, h2⟩ := Prod.mk.inj h
        refine .inr ⟨s0, ?_⟩
        generalize hg : W.git s0 [str% "ls-remote", str% "--tags", str% "--heads"] = g at h1 h2
        obtain ⟨o, s1⟩ := g
        cases h2
        dsimp only at h1
        unfold expectListed at h1
        split at h1
        · cases h1
          exact ⟨_, false, (fetchP_ok _ _ _).1 hf, .inl ⟨rfl, rfl, hg⟩, rfl⟩
        · split at h1
          · rename_i hu
            cases h1
            subst hu
            exact ⟨_, true, (fetchP_ok _ _ _).1 hf, .inr ⟨rfl, _, hg⟩, rfl⟩
          · cases h1
        · exact absurd h1 (parseBranches_noErr _ _)
  · rintro (h | ⟨s0, e, st, h1, ⟨rfl, _, h2⟩ | ⟨rfl, o, h2⟩, rfl⟩)
    · rw [h]
    · rw [(fetchP_ok _ _ _).2 h1]
      dsimp only
      rw [h2]
      rfl
    · rw [(fetchP_ok _ _ _).2 h1]
      dsimp only
      rw [h2]
      rfl

/-- C62: the handler panics exactly if git refuses with a message that is not UTF-8, or its output is not understood.  It always ends. -/
theorem C62_answer_panic {W : World} {srv : Server} {repo : Str} {path : Path} (hk : srv.repos repo = some path) (fetch : Bool) (s s' : W.State) :
    ((branchesP srv repo fetch).run W s = (.panic, s') ↔
      (fetch = true ∧ ∃ e, Refuses W s [str% "fetch", str% "--all", str% "--prune", str% "--tags"] e true false s') ∨
      ∃ s0, FetchedAll W fetch s s0 ∧ ((∃ e, Refuses W s0 [str% "ls-remote", str% "--tags", str% "--heads"] e true false s') ∨
        ∃ stdout stderr utf8, W.git s0 [str% "ls-remote", str% "--tags", str% "--heads"] = (.exited true stdout stderr utf8, s') ∧
          Garbled stdout)) ∧ ((branchesP srv repo fetch).run W s).1 ≠ .diverge := by
  simp only [← (C62_exact _).2]
  rw [branches_run hk, ← fetchP_panic]
  constructor
  · constructor
    · intro h
      cases hf : (fetchP fetch).run W s with
      | mk r s0 =>
        rw [hf] at h
        cases r with
        | err m => cases h
        | panic => exact .inl (by cases h; rfl)
        | diverge => cases h
        | ok u =>
          dsimp only at h
          obtain ⟨h1, h2⟩ := Prod.mk.inj h
          refine .inr ⟨s0, (fetchP_ok _ _ _).1 hf, ?_⟩
          generalize hg : W.git s0 [str% "ls-remote", str% "--tags", str% "--heads"] = g at h1 h2
          obtain ⟨o, s1⟩ := g
          cases h2
          dsimp only at h1
          unfold expectListed at h1
          split at h1
          · cases h1
          · split at h1
            · cases h1
            · rename_i hu
              rw [Bool.not_eq_true] at hu
              subst hu
              exact .inl ⟨_, .inr ⟨rfl, _, hg⟩⟩
          · exact .inr ⟨_, _, _, rfl, h1⟩
    · rintro (h | ⟨s0, h1, ⟨e, ⟨h, _⟩ | ⟨_, o, h2⟩⟩ | ⟨stdout, stderr, utf8, h2, h3⟩⟩)
      · rw [h]
      · cases h
      · rw [(fetchP_ok _ _ _).2 h1]
        dsimp only
        rw [h2]
        rfl
      · rw [(fetchP_ok _ _ _).2 h1]
        dsimp only
        rw [h2]
        exact Prod.ext h3 rfl
  · have hd := fetchP_halts (W := W) fetch s
    cases hf : (fetchP fetch).run W s with
    | mk r s0 =>
      rw [hf] at hd
      cases r with
      | err m => exact fun h => nomatch h
      | panic => exact fun h => nomatch h
      | diverge => exact absurd rfl hd
      | ok u =>
        dsimp only
        unfold expectListed
        split
        · exact fun h => nomatch h
        · split <;> exact fun h => nomatch h
        · exact parseBranches_halts _

/-! ### What does not hold, and examples -/

/-- The file system of the examples: files called `bad` cannot be read; the content of the others is their last component. -/
def exFiles : Fs := fun p => match p.getLast? with
  | some (.normal s) => if s = str% "bad" then .error (str% "denied") else .ok s
  | _ => .error (str% "directory")

/-- Two functions per file; `v1` has weight 10, everything else 20. -/
def exTwoEnv : Env :=
  ⟨fun c => .ok [.impl (.path false [str% "SubstrateWeight"]) [.fn (exFn (if c = str% "v1" then str% "10" else str% "20")),
    .fn { exFn (str% "7") with name := str% "burn" }]], asciiClass⟩

/-- C76, against the text: one file with two functions is reported as two files. -/
theorem C76_false_count : cliParseFiles exTwoEnv exFiles [[.normal (str% "v1")]] =
    (str% "Trying to parse 1 files...", .ok (str% "Parsed 2 files successfully")) := by decide +kernel

example : ReadFiles exTwoEnv exFiles true [[.normal (str% "bad")]] [] :=
  ⟨[[]], .cons (.inr ⟨rfl, rfl, _, .inl ⟨_, rfl, rfl⟩, fun _ _ => ⟨[], _, rfl⟩⟩) .nil, rfl⟩
example : FirstUnreadable exTwoEnv exFiles [[.normal (str% "v1")], [.normal (str% "bad")]] (str% "bad: denied") :=
  ⟨[[.normal (str% "v1")]], _, [], rfl, fun q hq => by
    rw [List.mem_singleton] at hq
    subst hq
    exact ⟨_, (parseFile_ok exTwoEnv exFiles _ _).1 rfl⟩, .inl ⟨_, rfl, rfl⟩, fun _ _ => ⟨[], _, rfl⟩⟩

/-- `compare files d/v1 -- e/v1`, with and without an unreadable file. -/
def exCompareFiles (ign : Bool) (old new : List Path) : Res Shown :=
  cliCompareFiles .release idOrder exRegex exEnv exPrintEnv exFiles ⟨.base, .time, ign, false, false, false⟩ exFilter ⟨.human, false, true, none⟩ old new

example : exCompareFiles false [[.normal (str% "v1")], [.normal (str% "bad")]] [[.normal (str% "v1")]] = .err (str% "bad: denied") := by decide +kernel
example : exCompareFiles true [[.normal (str% "v1")], [.normal (str% "bad")]] [[.normal (str% "v2")], [.normal (str% "v1")]] =
    .ok (.table ⟨[str% "File", str% "Extrinsic", str% "Old", str% "New", str% "Change [%]"],
      [[str% "v2", str% "transfer", [], str% "20ps", str% "Added"], [str% "v1", str% "transfer", str% "10ps", str% "10ps", str% "Unchanged"]]⟩ false) := by
  decide +kernel

/-- C77, what is not excluded: whatever the old revision is, if it has no blanks around it then it is an argument of the first git command.  If it begins with `-`, git takes it
for an option of `git fetch`: visitors choose the options of git. -/
theorem C77_false_option {W : World} {srv : Server} (ho : HashOrder) {a : CompareArgs} (hr : srv.repos a.repo ≠ none) (hp : hasDotDot (trim a.pathPattern) = false)
    (hg : a.gitPull ≠ some false) {opt : Str} (h : a.old = opt) (ht : trim opt = opt) (s : W.State) :
    (gitCommands W (doCompare srv ho a) s).head? = some [str% "fetch", str% "origin", opt] := by
  subst h
  cases e : srv.repos a.repo with
  | none => exact absurd e hr
  | some path =>
    have hw : (webParams a).shouldPull = true ∧ (webParams a).gitForce = true := by
      refine ⟨?_, rfl⟩
      show (a.gitPull.getD true && !false) = true
      cases h : a.gitPull with
      | none => rfl
      | some b =>
        cases b with
        | false => exact absurd h hg
        | true => rfl
    unfold doCompare compareCommitsP
    rw [e]
    dsimp only
    rw [hp, hw.1, hw.2, ht]
    rfl

/-- A request whose old revision looks like an option. -/
def exOptionArgs : CompareArgs := { exArgs with old := str% "--upload-pack=x" }

/-- The hypotheses of `C77_false_option` hold for it. -/
example : (exServer exEnv).repos exOptionArgs.repo ≠ none ∧ hasDotDot (trim exOptionArgs.pathPattern) = false ∧ exOptionArgs.gitPull ≠ some false ∧
    exOptionArgs.old = str% "--upload-pack=x" ∧ trim (str% "--upload-pack=x") = str% "--upload-pack=x" ∧ (str% "--upload-pack=x").head? = some '-' := by
  decide +kernel
example : gitCommands exWorld (doCompare (exServer exEnv) idOrder exArgs) (str% "start") =
    [[str% "fetch", str% "origin", str% "v1"], [str% "reset", str% "--hard", str% "origin/v1"], [str% "reset", str% "--hard", str% "v1"],
      [str% "fetch", str% "origin", str% "v2"], [str% "reset", str% "--hard", str% "origin/v2"]] := by decide +kernel
example : gitCommands exWorld (doCompare (exServer exEnv) idOrder { exArgs with gitPull := some false }) (str% "start") =
    [[str% "reset", str% "--hard", str% "origin/v1"], [str% "reset", str% "--hard", str% "v1"], [str% "reset", str% "--hard", str% "origin/v2"]] := by
  decide +kernel

/-- A remote with one branch; fetching fails in the state 1, listing in the state 2 with an unreadable message. -/
def exRemote : World where
  State := Nat
  git s args := if args.head? = some (str% "fetch") then (if s = 1 then .spawnFailed (str% "no git") else .exited true [] [] true, s)
    else if s = 2 then (.exited false [] (str% "?") false, s)
    else (.exited true (str% "0123456789abcdef\trefs/heads/main\n") [] true, s)
  glob _ _ := .ok []
  fs _ _ := .error []

example : ((branchesP (exServer exEnv) (str% "repo") true).run exRemote (0 : Nat) |>.1) = .ok [(str% "main", str% "0123456789ab")] := by
  decide +kernel
example : ((branchesP (exServer exEnv) (str% "repo") true).run exRemote (1 : Nat) |>.1) = .err (str% "Failed to fetch branches: 'no git'") := by
  decide +kernel
example : ((branchesP (exServer exEnv) (str% "repo") false).run exRemote (2 : Nat) |>.1) = .panic := by decide +kernel
example : FetchedAll exRemote true (0 : Nat) (0 : Nat) := .inr ⟨rfl, _, _, rfl, ⟨[], [], true, rfl⟩, rfl⟩
example : Refuses exRemote (1 : Nat) [str% "fetch"] (str% "no git") false true (1 : Nat) := .inl ⟨rfl, rfl, rfl⟩

end Swc
