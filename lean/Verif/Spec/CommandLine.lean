/-
Independent specification of command lines: what can be given, how it can be written, and what it says.
-/
import Verif.Model.CommandLine
import Verif.Spec.Options
import Verif.Spec.Git

namespace Swc.Spec

open Swc

/-- Something given on a command line. -/
inductive Given where
  | flag (name : Str)
  | value (name v : Str)
  | values (name : Str) (vs : List Str)
  | word (v : Str)
  deriving DecidableEq

/-- The arguments a command knows: names of flags; names for single values, with the spellings for them; letters for single values; names of lists. -/
structure Arguments where
  flags : List Str
  values : List (Str × Str)
  letters : List (Str × Char)
  lists : List Str

/-- A word that begins with a dash and is more than that. -/
def Dashed (w : Str) : Prop := ∃ c r, w = '-' :: c :: r

/-- The ways to write what is given.  Values that follow as words of their own do not look like options, and a list ends at the next option. -/
inductive Written (A : Arguments) : List Given → List Str → Prop
  | done : Written A [] []
  | flag {n g ws} : n ∈ A.flags → Written A g ws → Written A (.flag n :: g) ((str% "--" ++ n) :: ws)
  | value {n s v g ws} : (n, s) ∈ A.values → ¬ Dashed v → Written A g ws → Written A (.value n v :: g) ((str% "--" ++ s) :: v :: ws)
  | valueEq {n s v g ws} : (n, s) ∈ A.values → Written A g ws → Written A (.value n v :: g) ((str% "--" ++ s ++ '=' :: v) :: ws)
  | letter {n c v g ws} : (n, c) ∈ A.letters → ¬ Dashed v → Written A g ws → Written A (.value n v :: g) (['-', c] :: v :: ws)
  | letterEq {n c v g ws} : (n, c) ∈ A.letters → Written A g ws → Written A (.value n v :: g) (('-' :: c :: '=' :: v) :: ws)
  | letterJoined {n c v g ws} : (n, c) ∈ A.letters → v ≠ [] → v.head? ≠ some '=' → Written A g ws →
      Written A (.value n v :: g) (('-' :: c :: v) :: ws)
  | values {n vs g ws} : n ∈ A.lists → (∀ v ∈ vs, ¬ Dashed v) → (∀ w, ws.head? = some w → Dashed w) → Written A g ws →
      Written A (.values n vs :: g) ((str% "--" ++ n) :: vs ++ ws)
  | valuesEq {n v g ws} : n ∈ A.lists → Written A g ws → Written A (.values n [v] :: g) ((str% "--" ++ n ++ '=' :: v) :: ws)
  | word {v g ws} : ¬ Dashed v → Written A g ws → Written A (.word v :: g) (v :: ws)
  | rest {vs} : Written A (vs.map .word) (str% "--" :: vs)

/-- The name of what is given. -/
def Given.name : Given → Option Str
  | .flag n => some n
  | .value n _ => some n
  | .values n _ => some n
  | .word _ => none

/-- The words without a name. -/
def words (g : List Given) : List Str := g.filterMap fun
  | .word v => some v
  | _ => none

/-- The values of a list, which may be given in several parts. -/
def listed (n : Str) (g : List Given) : List Str := g.flatMap fun
  | .values m vs => if m = n then vs else []
  | _ => []

/-- The name is given not more than once. -/
def AtMostOnce (g : List Given) (n : Str) : Prop := g.countP (fun x => x.name = some n) ≤ 1

/-- The flag `n` is `b`. -/
def Flag (g : List Given) (n : Str) (b : Bool) : Prop := AtMostOnce g n ∧ (b = true ↔ Given.flag n ∈ g)

/-- The value of `n` is `a`, as given or by default. -/
def Value {α : Type} (g : List Given) (n : Str) (dflt : Option Str) (Reads : Str → α → Prop) (a : α) : Prop :=
  AtMostOnce g n ∧ ((∃ v, Given.value n v ∈ g ∧ Reads v a) ∨ (∀ v, Given.value n v ∉ g) ∧ ∃ d, dflt = some d ∧ Reads d a)

/-- The value of `n` is `o`, if it is given. -/
def Optional (g : List Given) (n : Str) (o : Option Str) : Prop :=
  AtMostOnce g n ∧ ∀ v, o = some v ↔ Given.value n v ∈ g

/-- The parts given for the list `n` are `vs` together. -/
def Parts {α : Type} (g : List Given) (n : Str) (Reads : Str → α → Prop) (as : List α) : Prop :=
  (∃ vs, Given.values n vs ∈ g) ∧ List.Forall₂ Reads (listed n g) as

/-- The text is a name for the value, in any case. -/
def NamedAs {E : Type} (names : List (Str × E)) (s : Str) (e : E) : Prop := ∃ n, (n, e) ∈ names ∧ SameLetters n s

/-- The names of the methods. -/
def methodNames : List (Str × CompareMethod) :=
  [(str% "base", .base), (str% "exact-worst", .exactWorst), (str% "guess-worst", .guessWorst), (str% "exact-asymptotic", .exactAsymptotic),
    (str% "asymptotic", .asymptotic)]

/-- The names of the dimensions. -/
def unitNames : List (Str × Dimension) := [(str% "time", .time), (str% "proof", .proof)]

/-- The names of the kinds of changes. -/
def changeNames : List (Str × RelativeChange) :=
  [(str% "unchanged", .unchanged), (str% "added", .added), (str% "removed", .removed), (str% "changed", .changed)]

/-- The names of the formats. -/
def formatNames : List (Str × OutputFormat) :=
  [(str% "human", .human), (str% "brief-human", .briefHuman), (str% "csv", .csv), (str% "json", .json), (str% "markdown", .markdown)]

/-- Decimal digits, at least one or any number of them. -/
def Digits (s : Str) : Prop := ∀ c ∈ s, c.isDigit

instance (s : Str) : Decidable (Digits s) := inferInstanceAs (Decidable (∀ c ∈ s, c.isDigit))

/-- The number that the digits write. -/
def digitsValue : Str → Nat
  | [] => 0
  | c :: s => (c.toNat - 48) * 10 ^ s.length + digitsValue s

/-- An exponent. -/
inductive Exponent : Str → ℤ → Prop
  | none : Exponent [] 0
  | plain {e d} : (e = 'e' ∨ e = 'E') → d ≠ [] → Digits d → Exponent (e :: d) (digitsValue d)
  | plus {e d} : (e = 'e' ∨ e = 'E') → d ≠ [] → Digits d → Exponent (e :: '+' :: d) (digitsValue d)
  | minus {e d} : (e = 'e' ∨ e = 'E') → d ≠ [] → Digits d → Exponent (e :: '-' :: d) (-digitsValue d)

/-- A decimal number without sign. -/
inductive Magnitude : Str → F64 → Prop
  | inf {s} : SameLetters (str% "inf") s ∨ SameLetters (str% "infinity") s → Magnitude s .pinf
  | nan {s} : SameLetters (str% "nan") s → Magnitude s .nan
  | whole {i x e} : Digits i → i ≠ [] → Exponent x e → Magnitude (i ++ x) (F64.rnd (digitsValue i * (10 : ℚ) ^ e))
  | point {i f x e} : Digits i → Digits f → i ≠ [] ∨ f ≠ [] → Exponent x e →
      Magnitude (i ++ '.' :: f ++ x) (F64.rnd ((digitsValue i + digitsValue f / (10 : ℚ) ^ f.length) * (10 : ℚ) ^ e))

/-- A number with an optional sign. -/
inductive Number : Str → F64 → Prop
  | plain {s x} : Magnitude s x → Number s x
  | plus {s x} : Magnitude s x → Number ('+' :: s) x
  | minus {s x} : Magnitude s x → Number ('-' :: s) x.neg

/-- A number for a port, with an optional sign. -/
inductive PortText : Str → Nat → Prop
  | plain {d} : d ≠ [] → Digits d → digitsValue d < 65536 → PortText d (digitsValue d)
  | plus {d} : d ≠ [] → Digits d → digitsValue d < 65536 → PortText ('+' :: d) (digitsValue d)
  | minus {d} : d ≠ [] → Digits d → digitsValue d = 0 → PortText ('-' :: d) 0

/-- The text is the pieces with slashes between them. -/
inductive Slashed : Str → List Str → Prop
  | last {t} : '/' ∉ t → Slashed t [t]
  | cons {t s ts} : '/' ∉ t → Slashed s ts → Slashed (t ++ '/' :: s) (t :: ts)

/-- The components that pieces stand for: empty ones and single dots stand for nothing. -/
inductive Steps : List Str → Path → Prop
  | nil : Steps [] []
  | skip {t ts p} : t = [] ∨ t = str% "." → Steps ts p → Steps (t :: ts) p
  | up {ts p} : Steps ts p → Steps (str% ".." :: ts) (.parent :: p)
  | down {t ts p} : t ≠ [] → t ≠ str% "." → t ≠ str% ".." → Steps ts p → Steps (t :: ts) (.normal t :: p)

/-- The text names the path. -/
inductive PathText : Str → Path → Prop
  | absolute {s ts p} : Slashed s ts → Steps ts p → PathText ('/' :: s) (.root :: p)
  | here {s ts p} : Slashed s (str% "." :: ts) → Steps ts p → PathText s (.cur :: p)
  | relative {s t ts p} : Slashed s (t :: ts) → t ≠ [] → t ≠ str% "." → Steps (t :: ts) p → PathText s p

/-- The arguments of both `compare` commands. -/
def compareFlags : List Str :=
  [str% "ignore-errors", str% "git-pull", str% "git-force", str% "offline", str% "print-terms", str% "no-color", str% "verbose"]

/-- … with a value. -/
def compareValues : List (Str × Str) :=
  [(str% "method", str% "method"), (str% "unit", str% "unit"), (str% "threshold", str% "threshold"), (str% "extrinsic", str% "extrinsic"),
    (str% "pallet", str% "pallet"), (str% "pallet", str% "file"), (str% "format", str% "format"),
    (str% "strip-path-prefix", str% "strip-path-prefix")]

/-- The arguments of `compare files`. -/
def filesArguments : Arguments where
  flags := compareFlags
  values := compareValues
  letters := [(str% "method", 'm'), (str% "unit", 'u')]
  lists := [str% "change", str% "old", str% "new"]

/-- The arguments of `compare commits`. -/
def commitsArguments : Arguments where
  flags := compareFlags
  values := compareValues ++ [(str% "repo", str% "repo"), (str% "path-pattern", str% "path-pattern")]
  letters := [(str% "method", 'm'), (str% "unit", 'u')]
  lists := [str% "change"]

/-- The arguments of `parse files`. -/
def parseArguments : Arguments where
  flags := [str% "verbose"]
  values := []
  letters := []
  lists := []

/-- The arguments of the server. -/
def serverArguments : Arguments where
  flags := []
  values := [(str% "root", str% "root"), (str% "static", str% "static"), (str% "endpoint", str% "endpoint"), (str% "port", str% "port"),
    (str% "cert", str% "cert"), (str% "key", str% "key")]
  letters := [(str% "root", 'r'), (str% "static", 's'), (str% "endpoint", 'e'), (str% "port", 'p')]
  lists := [str% "repos"]

/-- What is given asks for this comparison. -/
structure SaysParams (g : List Given) (p : CompareParams) : Prop where
  method : Value g (str% "method") none (NamedAs methodNames) p.method
  unit : Value g (str% "unit") (some (str% "time")) (NamedAs unitNames) p.unit
  ignoreErrors : Flag g (str% "ignore-errors") p.ignoreErrors
  gitPull : Flag g (str% "git-pull") p.gitPull
  gitForce : Flag g (str% "git-force") p.gitForce
  offline : Flag g (str% "offline") p.offline

/-- What is given asks for this filter. -/
structure SaysFilter (g : List Given) (f : FilterParams) : Prop where
  threshold : Value g (str% "threshold") (some (str% "5")) Number f.threshold
  change : (f.change = none ∧ ∀ vs, Given.values (str% "change") vs ∉ g) ∨
    ∃ cs, f.change = some cs ∧ Parts g (str% "change") (NamedAs changeNames) cs
  extrinsic : Optional g (str% "extrinsic") f.extrinsic
  pallet : Optional g (str% "pallet") f.pallet

/-- What is given asks for this output. -/
structure SaysFormat (g : List Given) (f : FormatParams) : Prop where
  format : Value g (str% "format") (some (str% "human")) (NamedAs formatNames) f.format
  printTerms : Flag g (str% "print-terms") f.printTerms
  noColor : Flag g (str% "no-color") f.noColor
  stripPathPrefix : Optional g (str% "strip-path-prefix") f.stripPathPrefix

/-- `--verbose` or nothing. -/
def maybeVerbose (v : Bool) : List Str := if v then [str% "--verbose"] else []

/-- What is given asks to compare these files. -/
structure SaysFiles (g : List Given) (v : Bool) (params : CompareParams) (filter : FilterParams) (format : FormatParams) (old new : List Path) :
    Prop where
  params : SaysParams g params
  filter : SaysFilter g filter
  format : SaysFormat g format
  old : Parts g (str% "old") PathText old
  new : Parts g (str% "new") PathText new
  verbose : Flag g (str% "verbose") v
  words : words g = []

/-- What is given asks to compare these revisions. -/
structure SaysCommits (g : List Given) (v : Bool) (params : CompareParams) (filter : FilterParams) (format : FormatParams) (old new : Str)
    (repo : Path) (pattern : Str) : Prop where
  params : SaysParams g params
  filter : SaysFilter g filter
  format : SaysFormat g format
  repo : Value g (str% "repo") (some (str% ".")) PathText repo
  pattern : Value g (str% "path-pattern") none Eq pattern
  verbose : Flag g (str% "verbose") v
  words : words g = [old] ∧ new = str% "master" ∨ words g = [old, new]

/-- What is given asks for this server. -/
structure SaysServer (g : List Given) (c : ServerCmd) : Prop where
  root : Value g (str% "root") (some (str% "root/")) PathText c.root
  static : Value g (str% "static") (some (str% "web/static")) PathText c.static
  repos : (∀ vs, Given.values (str% "repos") vs ∉ g) ∧ c.repos = [str% "polkadot"] ∨ Parts g (str% "repos") Eq c.repos
  endpoint : Value g (str% "endpoint") (some (str% "127.0.0.1")) Eq c.endpoint
  port : Value g (str% "port") (some (str% "8080")) PortText c.port
  cert : Optional g (str% "cert") c.cert
  key : Optional g (str% "key") c.key
  both : c.cert = none ↔ c.key = none
  words : words g = []

end Swc.Spec
