/-
Running a program of `Model/Prog.lean` without interruption is the same as the corresponding function of `Model/Git.lean`.
-/
import Verif.Model.Web
import Verif.Lemmas.Halts

namespace Swc

namespace Prog

variable {W : World} {α β : Type}

theorem run_bind (p : Prog α) (f : α → Prog β) (s : W.State) :
    (p >>= f).run W s = match p.run W s with
      | (.ok a, s') => (f a).run W s'
      | (.err m, s') => (.err m, s')
      | (.panic, s') => (.panic, s')
      | (.diverge, s') => (.diverge, s') := by
  show (p.andThen f).run W s = _
  induction p generalizing s with
  | done r => cases r <;> rfl
  | git args k ih => exact ih _ _
  | glob pattern k ih => exact ih _ _
  | read file k ih => exact ih _ _

theorem run_step {p p' : Prog α} {s s' : W.State} (h : p.step W s = some (p', s')) : p'.run W s' = p.run W s := by
  cases p <;> simp only [step, Option.some.injEq, Prod.mk.injEq, reduceCtorEq] at h
  all_goals obtain ⟨rfl, rfl⟩ := h; rfl

theorem step_some_of_not_done {p : Prog α} (h : ∀ r, p ≠ .done r) (s : W.State) : ∃ p' s', p.step W s = some (p', s') := by
  cases p with
  | done r => exact absurd rfl (h r)
  | git => exact ⟨_, _, rfl⟩
  | glob => exact ⟨_, _, rfl⟩
  | read => exact ⟨_, _, rfl⟩

/-- Every end of the program is an outcome that the code can return. -/
inductive Ends : Prog α → Prop
  | done {r} (h : Halts r) : Ends (.done r)
  | git {args k} (h : ∀ o, Ends (k o)) : Ends (.git args k)
  | glob {pattern k} (h : ∀ o, Ends (k o)) : Ends (.glob pattern k)
  | read {file k} (h : ∀ o, Ends (k o)) : Ends (.read file k)

theorem ends_pure (a : α) : Ends (pure a : Prog α) := .done (halts_ok a)

theorem ends_bind {p : Prog α} {f : α → Prog β} (hp : Ends p) (hf : ∀ a, Ends (f a)) : Ends (p >>= f) := by
  show Ends (p.andThen f)
  induction hp with
  | @done r h =>
    cases r with
    | ok a => exact hf a
    | err m => exact .done (halts_err m)
    | panic => exact .done halts_panic
    | diverge => exact absurd rfl h
  | git _ ih => exact .git ih
  | glob _ ih => exact .glob ih
  | read _ ih => exact .read ih

theorem ends_step {p p' : Prog α} {s s' : W.State} (hp : Ends p) (h : p.step W s = some (p', s')) : Ends p' := by
  cases hp <;> simp only [step, Option.some.injEq, Prod.mk.injEq, reduceCtorEq] at h
  all_goals obtain ⟨rfl, rfl⟩ := h; rename_i h; exact h _

theorem ends_ite {c : Prop} [Decidable c] {p q : Prog α} (hp : Ends p) (hq : Ends q) : Ends (if c then p else q) := by
  split <;> assumption

theorem ends_mapErr {f : Str → Str} {p : Prog α} (hp : Ends p) : Ends (p.mapErr f) := by
  induction hp with
  | done h => rename_i r; exact .done (by cases r with | err m => exact halts_err _ | _ => exact h)
  | git h ih => exact .git ih
  | glob h ih => exact .glob ih
  | read h ih => exact .read ih

end Prog

open Prog

section Ends

theorem gitP_ends (args : List Str) : Ends (gitP args) := .git fun o => .done (halts_ok o)

theorem expectSuccess_halts (what : Str) (o : GitOut) : Halts (expectSuccess what o) := by
  unfold expectSuccess
  split
  · exact halts_err _
  · exact halts_err _
  · exact halts_ok _

theorem gitPullP_ends (r : Str) : Ends (gitPullP r) := ends_bind (gitP_ends _) fun _ => .done (expectSuccess_halts _ _)

theorem gitResetP_ends (r : Str) (pull : Bool) : Ends (gitResetP r pull) := by
  have rest : Ends (do
      let out ← gitP [str% "reset", str% "--hard", str% "origin/" ++ r]
      match out with
      | .exited true _ _ _ => pure ()
      | _ => do
        let out ← gitP [str% "reset", str% "--hard", r]
        .done (expectSuccess (str% "Failed to reset branch") out)) := by
    refine ends_bind (gitP_ends _) fun o => ?_
    split
    · exact ends_pure _
    · exact ends_bind (gitP_ends _) fun _ => .done (expectSuccess_halts _ _)
  cases pull
  · exact rest
  · exact ends_bind (gitPullP_ends r) fun _ => rest

theorem gitCheckoutP_ends (r : Str) (pull force : Bool) : Ends (gitCheckoutP r pull force) := by
  cases force
  · cases pull
    · exact ends_bind (gitP_ends _) fun _ => .done (expectSuccess_halts _ _)
    · exact ends_bind (gitPullP_ends r) fun _ => ends_bind (gitP_ends _) fun _ => .done (expectSuccess_halts _ _)
  · exact gitResetP_ends r pull

theorem collectPaths_halts (l : List (Except Str Path)) : Halts (collectPaths l) := by
  fun_induction collectPaths l with
  | case1 => exact halts_ok _
  | case2 => exact halts_err _
  | case3 p l ih => exact halts_bind ih fun _ => halts_ok _

theorem globP_ends (p : Str) : Ends (globP p) := by
  refine .glob fun o => ?_
  cases o with
  | error e => exact .done (halts_err _)
  | ok l => exact .done (collectPaths_halts l)

theorem listLoopP_ends (base : Path) (m : Nat) (rs : List Str) (paths : List Path) : Ends (listLoopP base m rs paths) := by
  induction rs generalizing paths with
  | nil => exact ends_pure _
  | cons r rs ih => exact ends_bind (globP_ends _) fun _ => ends_ite (.done (halts_err _)) (ih _)

theorem listFilesP_ends (base : Path) (pattern : Str) (m : Nat) : Ends (listFilesP base pattern m) :=
  ends_bind (listLoopP_ends _ _ _ _) fun _ => ends_pure _

theorem parseListedP_ends (env : Env) (repo : Path) (ign : Bool) (paths : List Path) : Ends (parseListedP env repo ign paths) := by
  refine ends_ite ?_ ?_
  · induction paths with
    | nil => exact ends_pure _
    | cons p l ih =>
      refine ends_bind (.read fun c => .done ?_) fun _ => ends_bind ih fun _ => ends_pure _
      have := parseFileInRepo_halts env (fun _ => c) repo p
      split
      · exact halts_ok _
      · exact this
  · induction paths with
    | nil => exact ends_pure _
    | cons p l ih => exact ends_bind (.read fun c => .done (parseFileInRepo_halts _ _ _ _)) fun _ => ends_bind ih fun _ => ends_pure _

theorem compareCommitsP_ends (b : Build) (ho : HashOrder) (rx : RegexEngine) (env : Env) (repo : Path) (old new : Str)
    (params : CompareParams) (filter : FilterParams) (pattern : Str) (maxFiles : Nat) :
    Ends (compareCommitsP b ho rx env repo old new params filter pattern maxFiles) :=
  ends_ite (.done (halts_err _)) (ends_bind (ends_mapErr (gitCheckoutP_ends _ _ _)) fun _ => ends_bind (listFilesP_ends _ _ _) fun _ =>
    ends_bind (parseListedP_ends _ _ _ _) fun _ => ends_bind (ends_mapErr (gitCheckoutP_ends _ _ _)) fun _ => ends_bind (listFilesP_ends _ _ _) fun _ =>
    ends_bind (parseListedP_ends _ _ _ _) fun _ => .done (compareFiles_halts _ _ _ _ _ _ _))

theorem doCompare_ends (srv : Server) (ho : HashOrder) (a : CompareArgs) : Ends (doCompare srv ho a) := by
  unfold doCompare
  split
  · exact .done (halts_err _)
  · exact ends_bind (compareCommitsP_ends _ _ _ _ _ _ _ _ _ _ _) fun _ => ends_pure _

theorem parseBranches_halts (s : Str) : Halts (parseBranches s) := by
  intro h
  obtain ⟨l, -, h⟩ := mapM_diverge h
  unfold branchOf at h
  split at h
  · split at h <;> cases h
  · cases h

theorem branchesP_ends (srv : Server) (r : Str) (f : Bool) : Ends (branchesP srv r f) := by
  unfold branchesP
  split
  · exact .done (halts_err _)
  · refine ends_bind (ends_ite (ends_bind (gitP_ends _) fun o => .done ?_) (ends_pure _)) fun _ => ends_bind (gitP_ends _) fun o =>
      ends_bind (.done ?_) fun _ => .done (parseBranches_halts _)
    · unfold expectFetched
      split
      · exact halts_err _
      · split
        · exact halts_err _
        · exact halts_panic
      · exact halts_ok _
    · unfold expectListed
      split
      · exact halts_err _
      · split
        · exact halts_err _
        · exact halts_panic
      · exact halts_ok _

end Ends

section Refines

variable {W : World} {α β : Type}

/-- The program does the same to the world as the function, and has the same outcome. -/
def Refines (p : Prog α) (x : Act W α) : Prop := ∀ s : Run W, p.run W s.state = ((x s).1, (x s).2.state)

theorem refines_pure (a : α) : Refines (W := W) (pure a) (pure a) := fun _ => rfl
theorem refines_done (r : Res α) : Refines (W := W) (.done r) (Act.lift r) := fun _ => rfl

theorem refines_bind {p : Prog α} {x : Act W α} {f : α → Prog β} {g : α → Act W β} (h : Refines p x) (hf : ∀ a, Refines (f a) (g a)) :
    Refines (p >>= f) (x >>= g) := by
  intro s
  rw [run_bind, h s]
  show _ = ((Act.andThen x g s).1, (Act.andThen x g s).2.state)
  unfold Act.andThen
  rcases x s with ⟨r, s'⟩
  cases r with
  | ok a => exact hf a s'
  | _ => rfl

theorem run_mapErr (f : Str → Str) (p : Prog α) (s : W.State) : (p.mapErr f).run W s = ((p.run W s).1.mapErr f, (p.run W s).2) := by
  induction p generalizing s with
  | done r => rfl
  | git args k ih => exact ih _ _
  | glob g k ih => exact ih _ _
  | read p k ih => exact ih _ _

theorem refines_mapErr {f : Str → Str} {p : Prog α} {x : Act W α} (h : Refines p x) : Refines (p.mapErr f) (x.mapErr f) := by
  intro s
  rw [run_mapErr, h s]
  rfl

theorem refines_git (args : List Str) : Refines (W := W) (gitP args) (runGit args) := fun _ => rfl

theorem refines_glob (p : Str) : Refines (W := W) (globP p) (runGlob p) := by
  intro s
  unfold globP runGlob
  rw [Prog.run]
  dsimp only
  cases W.glob s.state p <;> rfl

theorem refines_ite {c : Prop} [Decidable c] {p q : Prog α} {x y : Act W α} (h1 : Refines p x) (h2 : Refines q y) :
    Refines (if c then p else q) (if c then x else y) := by
  split <;> assumption

theorem refines_pull (r : Str) : Refines (W := W) (gitPullP r) (gitPull r) := refines_bind (refines_git _) fun _ => refines_done _

theorem refines_reset (r : Str) (pull : Bool) : Refines (W := W) (gitResetP r pull) (gitReset r pull) := by
  have rest : Refines (W := W) (do
      let out ← gitP [str% "reset", str% "--hard", str% "origin/" ++ r]
      match out with
      | .exited true _ _ _ => pure ()
      | _ => do
        let out ← gitP [str% "reset", str% "--hard", r]
        .done (expectSuccess (str% "Failed to reset branch") out)) (do
      let out ← runGit [str% "reset", str% "--hard", str% "origin/" ++ r]
      match out with
      | .exited true _ _ _ => pure ()
      | _ => do
        let out ← runGit [str% "reset", str% "--hard", r]
        Act.lift (expectSuccess (str% "Failed to reset branch") out)) := by
    refine refines_bind (refines_git _) fun o => ?_
    split
    · exact refines_pure _
    · exact refines_bind (refines_git _) fun _ => refines_done _
  cases pull
  · exact rest
  · exact refines_bind (refines_pull r) fun _ => rest

theorem refines_checkout (r : Str) (pull force : Bool) : Refines (W := W) (gitCheckoutP r pull force) (gitCheckout r pull force) := by
  cases force
  · cases pull
    · exact refines_bind (refines_git _) fun _ => refines_done _
    · exact refines_bind (refines_pull r) fun _ => refines_bind (refines_git _) fun _ => refines_done _
  · exact refines_reset r pull

theorem refines_listLoop (base : Path) (m : Nat) (rs : List Str) (paths : List Path) :
    Refines (W := W) (listLoopP base m rs paths) (listLoop base m rs paths) := by
  induction rs generalizing paths with
  | nil => exact refines_pure _
  | cons r rs ih => exact refines_bind (refines_glob _) fun _ => refines_ite (refines_done _) (ih _)

theorem refines_listFiles (base : Path) (pattern : Str) (m : Nat) :
    Refines (W := W) (listFilesP base pattern m) (listFiles base pattern m) :=
  refines_bind (refines_listLoop _ _ _ _) fun _ => refines_pure _

theorem parseAllP_run (env : Env) (repo : Path) (l : List Path) (s : W.State) :
    (parseAllP env repo l).run W s = (parseAll (parseFileInRepo env (W.fs s) repo) l, s) := by
  induction l with
  | nil => rfl
  | cons p l ih =>
    have e : (parseFileP env repo p).run W s = (parseFileInRepo env (W.fs s) repo p, s) := rfl
    rw [parseAllP, run_bind, e, parseAll]
    cases parseFileInRepo env (W.fs s) repo p with
    | ok a =>
      dsimp only
      rw [run_bind, ih]
      cases parseAll (parseFileInRepo env (W.fs s) repo) l <;> rfl
    | _ => rfl

theorem tryParseAllP_run (env : Env) (repo : Path) (l : List Path) (s : W.State) :
    (tryParseAllP env repo l).run W s = (tryParseAll (parseFileInRepo env (W.fs s) repo) l, s) := by
  induction l with
  | nil => rfl
  | cons p l ih =>
    rw [tryParseAllP, run_bind, tryParseAll]
    simp only [Prog.run]
    have e : parseFileInRepo env (fun _ => W.fs s p) repo p = parseFileInRepo env (W.fs s) repo p := rfl
    rw [e]
    cases parseFileInRepo env (W.fs s) repo p with
    | ok a =>
      dsimp only
      rw [run_bind, ih]
      cases tryParseAll (parseFileInRepo env (W.fs s) repo) l <;> rfl
    | err m =>
      dsimp only
      rw [run_bind, ih]
      cases tryParseAll (parseFileInRepo env (W.fs s) repo) l <;> rfl
    | _ => rfl

theorem refines_parseListed (env : Env) (repo : Path) (ign : Bool) (paths : List Path) :
    Refines (W := W) (parseListedP env repo ign paths) (parseListed env repo ign paths) := by
  intro s
  cases ign
  · exact parseAllP_run _ _ _ _
  · exact tryParseAllP_run _ _ _ _

/-- Step by step, `compare_commits` does what `compareCommits` does. -/
theorem refines_compareCommits (b : Build) (ho : HashOrder) (rx : RegexEngine) (env : Env) (repo : Path) (old new : Str)
    (params : CompareParams) (filter : FilterParams) (pattern : Str) (maxFiles : Nat) :
    Refines (W := W) (compareCommitsP b ho rx env repo old new params filter pattern maxFiles)
      (compareCommits b ho rx env repo old new params filter pattern maxFiles) :=
  refines_ite (refines_done _) (refines_bind (refines_mapErr (refines_checkout _ _ _)) fun _ => refines_bind (refines_listFiles _ _ _) fun _ =>
    refines_bind (refines_parseListed _ _ _ _) fun _ => refines_bind (refines_mapErr (refines_checkout _ _ _)) fun _ =>
    refines_bind (refines_listFiles _ _ _) fun _ => refines_bind (refines_parseListed _ _ _ _) fun _ => refines_done _)

end Refines

end Swc
