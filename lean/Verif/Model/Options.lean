/-
Model of the textual names of options: `FromStr`, `variants`, `all`, `reflect` in `core/src/lib.rs`, `core/src/parse/mod.rs` and
`cli/src/main.rs`; and of the derived `serde::Deserialize` (used for the query of the web server) and `clap::ValueEnum` (used for the
command line).

`clap` 4.5 prefers `ValueEnum` over `FromStr`; its names are the kebab-case of the variants (crate `heck`), compared without regard to ASCII
case where the argument says `ignore_case = true`, as all of these do.
-/
import Verif.Model.Cli
import Verif.Model.Path

namespace Swc

/-- `core/src/lib.rs:421-430` `FromStr for CompareMethod`. -/
def CompareMethod.fromStr (s : Str) : Res CompareMethod :=
  if s = str% "base" then .ok .base
  else if s = str% "guess-worst" then .ok .guessWorst
  else if s = str% "exact-worst" then .ok .exactWorst
  else if s = str% "exact-asymptotic" then .ok .exactAsymptotic
  else if s = str% "asymptotic" then .ok .asymptotic
  else .err (str% "Unknown method: " ++ s)

/-- `core/src/lib.rs:434-442` `CompareMethod::all`. -/
def CompareMethod.all : List CompareMethod := [.base, .guessWorst, .exactWorst, .exactAsymptotic, .asymptotic]

/-- `core/src/lib.rs:444-446` `CompareMethod::variants`. -/
def CompareMethod.variants : List Str :=
  [str% "base", str% "guess-worst", str% "exact-worst", str% "exact-asymptotic", str% "asymptotic"]

/-- `core/src/lib.rs:448-450` `CompareMethod::reflect`. -/
def CompareMethod.reflect : List (CompareMethod × Str) := CompareMethod.all.zip CompareMethod.variants

/-- `core/src/lib.rs:456-462` `FromStr for Dimension`. -/
def Dimension.fromStr (s : Str) : Res Dimension :=
  if s = str% "time" ∨ s = str% "weight" then .ok .time
  else if s = str% "proof" then .ok .proof
  else .err (str% "Unknown method: " ++ s)

/-- `core/src/lib.rs:891-893` `Dimension::all`. -/
def Dimension.all : List Dimension := [.time, .proof]

/-- `core/src/lib.rs:895-897` `Dimension::variants`. -/
def Dimension.variants : List Str := [str% "time", str% "proof"]

/-- `core/src/lib.rs:899-901` `Dimension::reflect`. -/
def Dimension.reflect : List (Dimension × Str) := Dimension.all.zip Dimension.variants

/-- `core/src/lib.rs:474-482` `FromStr for RelativeChange`. -/
def RelativeChange.fromStr (s : Str) : Res RelativeChange :=
  if s = str% "unchanged" then .ok .unchanged
  else if s = str% "changed" then .ok .changed
  else if s = str% "added" then .ok .added
  else if s = str% "removed" then .ok .removed
  else .err (str% "Unknown change: " ++ s)

/-- `core/src/lib.rs:486-488` `RelativeChange::variants`. -/
def RelativeChange.variants : List Str := [str% "unchanged", str% "changed", str% "added", str% "removed"]

/-- `cli/src/main.rs:166-175` `FromStr for OutputFormat`. -/
def OutputFormat.fromStr (s : Str) : Res OutputFormat :=
  if s = str% "human" then .ok .human
  else if s = str% "brief-human" then .ok .briefHuman
  else if s = str% "csv" then .ok .csv
  else if s = str% "json" then .ok .json
  else if s = str% "markdown" then .ok .markdown
  else .err (str% "Unknown output format: " ++ s)

/-- `cli/src/main.rs:158-160` `OutputFormat::variants`. -/
def OutputFormat.variants : List Str := [str% "human", str% "brief-human", str% "csv", str% "json", str% "markdown"]

/-- `core/src/parse/mod.rs:61-67` `FromStr for PathStripping`. -/
def PathStripping.fromStr (s : Str) : Res PathStripping :=
  if s = str% "file_name" then .ok .fileName
  else if s = str% "repo_relative" then .ok .repoRelative
  else .err (str% "Unknown stripping: " ++ s)

/-- `core/src/parse/mod.rs:53-55` `PathStripping::variants`. -/
def PathStripping.variants : List Str := [str% "file_name", str% "repo_relative"]

/-! ### Derived parsers -/

/-- The variants of `core/src/lib.rs:334-345` in order of declaration, with their identifiers. -/
def CompareMethod.idents : List (Str × CompareMethod) :=
  [(str% "Base", .base), (str% "ExactWorst", .exactWorst), (str% "GuessWorst", .guessWorst), (str% "ExactAsymptotic", .exactAsymptotic),
    (str% "Asymptotic", .asymptotic)]

/-- The variants of `core/src/lib.rs:409-416`. -/
def Dimension.idents : List (Str × Dimension) := [(str% "Time", .time), (str% "Proof", .proof)]

/-- The variants of `core/src/lib.rs:112-117`. -/
def RelativeChange.idents : List (Str × RelativeChange) :=
  [(str% "Unchanged", .unchanged), (str% "Added", .added), (str% "Removed", .removed), (str% "Changed", .changed)]

/-- The variants of `cli/src/main.rs:143-154`. -/
def OutputFormat.idents : List (Str × OutputFormat) :=
  [(str% "Human", .human), (str% "BriefHuman", .briefHuman), (str% "CSV", .csv), (str% "JSON", .json), (str% "Markdown", .markdown)]

/-- `to_ascii_lowercase` of a string. -/
def asciiLower (s : Str) : Str := s.map Char.toLower

/-- The rule `rename_all = "kebab-case"` of `serde_derive` for variants: a `-` before every upper-case letter but the first character, and
all letters in lower case. -/
def serdeKebab : Str → Str
  | [] => []
  | c :: s => c.toLower :: s.flatMap fun d => if d.isUpper then ['-', d.toLower] else [d]

/-- `heck::ToKebabCase` for an identifier made of ASCII letters: words end before an upper-case letter that follows a lower-case one, and
before the last letter of a run of upper-case letters that is followed by a lower-case one. -/
def clapKebab (s : Str) : Str := go none s
where
  /-- `prev` is the previous letter. -/
  go : Option Char → Str → Str
    | _, [] => []
    | prev, c :: s =>
      let cut := match prev with
        | none => false
        | some p => c.isUpper && (p.isLower || (p.isUpper && match s with | d :: _ => d.isLower | [] => false))
      (if cut then ['-', c.toLower] else [c.toLower]) ++ go (some c) s

/-- Deserializing an enum with unit variants from a string: exact names and aliases. -/
def deserialize {E : Type} (names : List (Str × E)) (s : Str) : Option E := names.lookup s

/-- `core/src/lib.rs:332-333`. -/
def CompareMethod.serdeNames : List (Str × CompareMethod) := CompareMethod.idents.map fun p => (serdeKebab p.1, p.2)

/-- `core/src/lib.rs:407-416`, with the alias `weight` of `Time`. -/
def Dimension.serdeNames : List (Str × Dimension) :=
  (Dimension.idents.map fun p => (serdeKebab p.1, p.2)) ++ [(str% "weight", .time)]

/-- `clap::ValueEnum::from_str(s, ignore_case = true)`: the first variant whose name is equal up to ASCII case. -/
def valueEnum {E : Type} (idents : List (Str × E)) (s : Str) : Option E :=
  (idents.find? fun p => asciiLower (clapKebab p.1) == asciiLower s).map (·.2)

end Swc
