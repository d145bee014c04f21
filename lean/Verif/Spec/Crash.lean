/-
Independent specification of when a command of the tool crashes.
-/
import Verif.Spec.Ending
import Verif.Spec.Printed

namespace Swc.Spec

open Swc

/-- The file is fatal, or it can be read although its path does not end with a name. -/
def CrashingFile (env : Env) (fs : Fs) (p : Path) : Prop := FatalFile env fs p ∨ (∃ c, fs p = .ok c) ∧ ¬ ∃ dir name, p = dir ++ [.normal name]

/-- Reading the files crashes: one of them does, and unless errors are ignored all those before it can be read. -/
def FilesCrash (env : Env) (fs : Fs) (ignoreErrors : Bool) (files : List Path) : Prop :=
  ∃ before file after, files = before ++ file :: after ∧ CrashingFile env fs file ∧ (ignoreErrors = false → ∀ q ∈ before, ∃ x, ReadFile env fs q x)

/-- The prefix cannot be removed from the path: the pattern is no regular expression, or the engine gives up. -/
def CannotStrip (penv : PrintEnv) (f : FormatParams) (path : Str) : Prop :=
  ∃ p, f.stripPathPrefix = some p ∧ (penv.strip p = none ∨ ∃ g, penv.strip p = some g ∧ g path = .panic)

/-- Printing a report crashes: it is printed as a table, and the prefix cannot be removed from the path of some row. -/
def PrintingCrashes (penv : PrintEnv) (f : FormatParams) (filter : FilterParams) (report : List ExtrinsicDiff) : Prop :=
  (f.format = .human ∨ f.format = .markdown) ∧ ∃ e ∈ report, Kept filter e ∧ CannotStrip penv f e.file

/-- When a command crashes, and in which state it leaves the world. -/
def CommandCrashes (W : World) (ho : HashOrder) (rx : RegexEngine) (env : Env) (penv : PrintEnv) (s s' : W.State) : Command → Prop
  | .compareFiles params filter f old new => s' = s ∧
    (FilesCrash env (W.fs s) params.ignoreErrors old ∨ ∃ olds, ReadFiles env (W.fs s) params.ignoreErrors old olds ∧
      (FilesCrash env (W.fs s) params.ignoreErrors new ∨ ∃ news report, ReadFiles env (W.fs s) params.ignoreErrors new news ∧
        compareFiles .release ho rx olds news params filter = .ok report ∧ PrintingCrashes penv f filter report))
  | .compareCommits params filter f old new repo pattern =>
    ParserCrashes W env repo old new params pattern (2 ^ 64 - 1) s s' ∨
      ∃ report, Reports W .release ho rx env repo old new params filter pattern (2 ^ 64 - 1) s report s' ∧ PrintingCrashes penv f filter report
  | .parseFiles files => s' = s ∧ FilesCrash env (W.fs s) false files

end Swc.Spec
