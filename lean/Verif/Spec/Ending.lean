/-
Independent specification of how the programs end: what goes wrong first, and what is said about it.
-/
import Verif.Spec.Failure
import Verif.Spec.Commands
import Verif.Spec.Startup
import Verif.Model.Ending

namespace Swc.Spec

open Swc

/-! ### The command line tool -/

/-- The output formats that are offered but do not exist. -/
def Missing (f : FormatParams) : Prop := f.format = .json ∨ f.format = .briefHuman

/-- The report is there, but cannot be printed. -/
def NotPrinted (rx : RegexEngine) (filter : FilterParams) (f : FormatParams) (why : Str) : Prop :=
  (∀ m, ¬ BadFilter rx filter m) ∧ Missing f ∧ why = str% "Unsupported output format"

/-- Why `compare files` shows nothing: what comes first is what is said. -/
def NoFilesReport (rx : RegexEngine) (env : Env) (fs : Fs) (params : CompareParams) (filter : FilterParams) (f : FormatParams) (old new : List Path)
    (why : Str) : Prop :=
  (params.ignoreErrors = false ∧ FirstUnreadable env fs old why) ∨
  ∃ olds, ReadFiles env fs params.ignoreErrors old olds ∧
    ((params.ignoreErrors = false ∧ FirstUnreadable env fs new why) ∨
      ∃ news, ReadFiles env fs params.ignoreErrors new news ∧ (BadFilter rx filter why ∨ NotPrinted rx filter f why))

/-- Why a command fails. -/
def CommandFails (W : World) (rx : RegexEngine) (env : Env) (s s' : W.State) (why : Str) : Command → Prop
  | .compareFiles params filter f old new => s' = s ∧ NoFilesReport rx env (W.fs s) params filter f old new why
  | .compareCommits params filter f old new repo pattern =>
    NoReport W rx env repo old new params filter pattern (2 ^ 64 - 1) s s' why ∨
      (¬ DotDot pattern ∧ ∃ s1, Usable W env repo old params pattern (2 ^ 64 - 1) s s1 ∧ Usable W env repo new params pattern (2 ^ 64 - 1) s1 s' ∧
        NotPrinted rx filter f why)
  | .parseFiles files => s' = s ∧ FirstUnreadable env (W.fs s) files why

/-! ### The web server -/

/-- There is no organisation to be found, and the text says why. -/
def NoOrigin (out : GitOut) (why : Str) : Prop :=
  (¬ Success out ∧ why = str% "Failed to get origin url: " ++ gitSays out) ∨
  (∃ stdout stderr utf8, out = .exited true stdout stderr utf8 ∧ (∀ c org, c ≠ '\n' → ¬ HttpsUrl (str% "github" ++ [c] ++ str% "com") org stdout) ∧
    why = str% "Failed to parse origin url")

/-- The repository can be served. -/
def Servable (m : Machine) (p : Path) : Prop :=
  m.exists_ p = true ∧ ∃ stdout stderr utf8 c org, m.origin p = .exited true stdout stderr utf8 ∧ c ≠ '\n' ∧ HttpsUrl (str% "github" ++ [c] ++ str% "com") org stdout

/-- Why the server does not start: what comes first is what is said. -/
def StartFails (m : Machine) (c : ServerCmd) (why : Str) : Prop :=
  (c.repos = [] ∧ why = str% "Need at least one value to --repos") ∨
  (∃ before name after, c.repos = before ++ name :: after ∧ (∀ n ∈ before, Servable m (c.root.join n)) ∧
    ((∃ e, NoOrigin (m.origin (c.root.join name)) e ∧ why = str% "Failed to get origin of " ++ name ++ str% ": " ++ e) ∨
      ((∀ e, ¬ NoOrigin (m.origin (c.root.join name)) e) ∧ m.exists_ (c.root.join name) = false ∧
        why = str% "Repo directory '" ++ (c.root.join name).display ++ str% "' does not exist"))) ∨
  (c.repos ≠ [] ∧ (∀ n ∈ c.repos, Servable m (c.root.join n)) ∧ m.isDir c.static = false ∧
    ∃ q, Quoted m.plain c.static.display q ∧ why = str% "Web root path '" ++ q ++ str% "' is not a directory")

/-- The server starts. -/
def CanStart (m : Machine) (c : ServerCmd) : Prop := c.repos ≠ [] ∧ (∀ n ∈ c.repos, Servable m (c.root.join n)) ∧ m.isDir c.static = true

end Swc.Spec
