/-
Independent specification of what keeps the server alive: which numbers, files and answers of git it can take.
-/
import Verif.Props.ParseFile
import Verif.Props.Branches
import Verif.Model.Git
import Verif.Model.RustText
import Verif.Spec.WeightFile
import Verif.Spec.Language
import Verif.Spec.Site

namespace Swc.Spec

open Swc

/-- All numbers in the equation are `u128` numbers. -/
def NumbersFit (t : ChromaticTerm) : Prop :=
  (∀ w, Sub (.value w) t → w.time < 2 ^ 128 ∧ w.proof < 2 ^ 128) ∧ ∀ n, Sub (.scalar n) t → n < 2 ^ 128

/-- All bounds are `u32` numbers. -/
def BoundsFit (ranges : Option ComponentRanges) : Prop :=
  ∀ l x r, ranges = some l → (x, r) ∈ l → r.min < 2 ^ 32 ∧ r.max < 2 ^ 32

/-- The functions of a file that are taken for weights contain no hostile one. -/
def Benign (syn : SynParser) (content : Str) : Prop :=
  ∀ items ty its f, syn content = .ok items → .impl ty its ∈ items → Eligible ty → f ∈ functions its → ReturnsWeight f → ¬ Hostile f

/-- The file is a generated weight file. -/
def Generated (content : Str) : Prop := ∃ style fns, GenFile style fns content ∧ fns ≠ [] ∧ ∀ f ∈ fns, f.Ok style

/-- The file does no harm: whatever the tables of characters, it is not fatal.  Benign files and generated weight files (which may end in anything) are
harmless (`C90_benign`, `C90_generated`), as are files that are no Rust and files in which a usable block comes before the fatal one. -/
def Harmless (syn : SynParser) (content : Str) : Prop := ∀ cc, ¬ FatalText syn cc content

/-- Nothing in this world upsets the server: the files do no harm, git complains in UTF-8, and lists references the way it is documented. -/
structure Peaceful (W : World) (syn : SynParser) : Prop where
  files : ∀ s p c, W.fs s p = .ok c → Harmless syn c
  messages : ∀ s args out err utf8, args = [str% "fetch", str% "--all", str% "--prune", str% "--tags"] ∨ args = [str% "ls-remote", str% "--tags", str% "--heads"] →
    (W.git s args).1 = .exited false out err utf8 → utf8 = true
  references : ∀ s out err utf8, (W.git s [str% "ls-remote", str% "--tags", str% "--heads"]).1 = .exited true out err utf8 →
    ∃ rs, out = output rs ∧ ∀ r ∈ rs, r.WellFormed ∧ r.name.getLast? ≠ some '/'

/-- A run of the site in which no further requests come and which does not come to rest while something is left to do; in between, time passes. -/
structure Undisturbed (W : World) (s : Site) (g : Nat → SiteState W.State) : Prop where
  step : ∀ n, g (n + 1) = g n ∨ s.Step W (g n) (g (n + 1))
  alone : ∀ n, (g n).inbox = (g 0).inbox
  busy : ∀ n, ¬ AllDone (g n).conf → ∃ m, n ≤ m ∧ ∃ i, ThreadStep W s.srv i (g m).conf (g (m + 1)).conf

end Swc.Spec
