/-
Independent specification of how a comparison of two revisions fails, and of the text that says so.
-/
import Verif.Spec.Git

namespace Swc.Spec

open Swc

/-! ### Texts in quotes -/

/-- The digits in base 16. -/
def hexDigits : Str := str% "0123456789abcdef"

/-- The number that these digits are in base 16. -/
def hexValue (h : Str) : Nat := h.foldl (fun n c => 16 * n + hexDigits.idxOf c) 0

/-- The digits are those of the number, without leading zeros. -/
structure Hexadecimal (n : Nat) (h : Str) : Prop where
  digits : ∀ c ∈ h, c ∈ hexDigits
  some_ : h ≠ []
  lead : h.head? = some '0' → h = ['0']
  value : hexValue h = n

/-- Characters with an escape of their own, and the letter that stands for them. -/
def escapeLetters : List (Char × Char) := [('\x00', '0'), ('\t', 't'), ('\r', 'r'), ('\n', 'n'), ('\\', '\\'), ('"', '"')]

/-- What is between the quotes, character by character. -/
inductive QuotedBody (plain : Char → Bool) : Str → Str → Prop
  | done : QuotedBody plain [] []
  | letter {c e : Char} {s q : Str} : (c, e) ∈ escapeLetters → QuotedBody plain s q → QuotedBody plain (c :: s) ('\\' :: e :: q)
  | plain {c : Char} {s q : Str} : (∀ e, (c, e) ∉ escapeLetters) → plain c = true → QuotedBody plain s q → QuotedBody plain (c :: s) (c :: q)
  | code {c : Char} {h s q : Str} : (∀ e, (c, e) ∉ escapeLetters) → plain c = false → Hexadecimal c.toNat h → QuotedBody plain s q →
      QuotedBody plain (c :: s) (str% "\\u{" ++ h ++ '}' :: q)

/-- The text in quotes. -/
def Quoted (plain : Char → Bool) (s q : Str) : Prop := ∃ body, QuotedBody plain s body ∧ q = '"' :: body ++ ['"']

/-! ### Git -/

/-- What git has to say: the error when it is started, or its error output. -/
def gitSays : GitOut → Str
  | .spawnFailed e => e
  | .exited _ _ stderr _ => stderr

/-- The command fails; the text is the title and what git says. -/
def FailsWith (W : World) (title : Str) (s : W.State) (args : List Str) (s' : W.State) (why : Str) : Prop :=
  ∃ out, W.git s args = (out, s') ∧ ¬ Success out ∧ why = title ++ str% ": " ++ gitSays out

/-- The revision cannot be checked out, and the text says which command failed and what git said about it.  If `origin/…` does not exist, it is not
mentioned. -/
def NotCheckedOut (W : World) (refname : Str) (pull force : Bool) (s s' : W.State) (why : Str) : Prop :=
  (pull = true ∧ FailsWith W (str% "Failed to fetch branch") s [str% "fetch", str% "origin", refname] s' why) ∨
  ∃ L s0, Fetched W refname pull s L s0 ∧
    ((force = false ∧ FailsWith W (str% "Failed to checkout branch") s0 [str% "checkout", refname] s' why) ∨
      (force = true ∧ ∃ L1 s1, Fails W s0 [str% "reset", str% "--hard", str% "origin/" ++ refname] L1 s1 ∧
        FailsWith W (str% "Failed to reset branch") s1 [str% "reset", str% "--hard", refname] s' why))

/-! ### Listing -/

/-- A piece of the pattern is not a pattern, or something on the way to its files cannot be read; the text says what. -/
def PieceFails (W : World) (s : W.State) (pattern : Str) (why : Str) : Prop :=
  (∃ e, W.glob s pattern = .error e ∧ why = str% "Invalid path pattern: " ++ e) ∨
  ∃ (good : List Path) (e : Str) (rest : List (Except Str Path)), W.glob s pattern = .ok (good.map .ok ++ .error e :: rest) ∧ why = str% "Path pattern error: " ++ e

/-- The listing fails at one of the pieces of the pattern: this piece fails, or with it there are too many files. -/
def NotListed (W : World) (s : W.State) (base : Path) (pattern : Str) (maxFiles : Nat) (why : Str) : Prop :=
  ∃ before piece after ms, Pieces pattern (before ++ piece :: after) ∧ Found W s base before ms ∧
    ms.flatten.length ≤ maxFiles ∧
    (PieceFails W s (base.display ++ str% "/" ++ piece) why ∨
      ∃ m, Found W s base [piece] [m] ∧ maxFiles < (ms.flatten ++ m).length ∧
        why = str% "Found too many files. Found: " ++ natToStr (ms.flatten ++ m).length ++ str% ", Max: " ++ natToStr maxFiles)

/-! ### Files -/

/-- The file cannot be read, is not a Rust program, or has no weights; the text says which file and what is wrong.  If it is not a Rust program, the text has the
whole content of the file. -/
def NotParsed (env : Env) (fs : Fs) (file : Path) (why : Str) : Prop :=
  (∃ e, fs file = .error e ∧ why = file.display ++ str% ": " ++ e) ∨
  (∃ content e q, fs file = .ok content ∧ env.syn content = .error e ∧ Quoted env.cc.plain content q ∧
    why = file.display ++ str% ": syn refused to parse content: " ++ q ++ str% ": " ++ e) ∨
  ∃ content items, fs file = .ok content ∧ env.syn content = .ok items ∧ (∀ i ∈ items, Passed env.cc i) ∧
    why = file.display ++ str% ": Could not find a weight implementation in the passed file"

/-- All files before this one are weight files, and this one is not. -/
def FirstBad (env : Env) (fs : Fs) (files : List Path) (why : Str) : Prop :=
  ∃ good file rest, files = good ++ file :: rest ∧ (∀ f ∈ good, ∃ name exts, UnderstoodFile env fs f name exts) ∧ NotParsed env fs file why

/-- The files crash the parser: one of them is fatal; if errors are not ignored, all before it are weight files. -/
def FatalFiles (env : Env) (fs : Fs) (ignoreErrors : Bool) (files : List Path) : Prop :=
  ∃ before file after, files = before ++ file :: after ∧ FatalFile env fs file ∧
    (ignoreErrors = false → ∀ f ∈ before, ∃ name exts, UnderstoodFile env fs f name exts)

/-! ### The comparison -/

/-- One revision cannot be used: it cannot be checked out (git's message is in quotes), its files cannot be listed, or one of them cannot be parsed and
this is not to be ignored. -/
def Unusable (W : World) (env : Env) (repo : Path) (rev : Str) (params : CompareParams) (pattern : Str) (maxFiles : Nat) (s s' : W.State) (why : Str) : Prop :=
  (∃ m, NotCheckedOut W rev params.shouldPull params.gitForce s s' m ∧ Quoted env.cc.plain m why) ∨
  ∃ L, CheckedOut W rev params.shouldPull params.gitForce s L s' ∧
    (NotListed W s' repo pattern maxFiles why ∨
      ∃ files, Listed W s' repo pattern maxFiles files ∧ params.ignoreErrors = false ∧ FirstBad env (W.fs s') files why)

/-- One revision can be used. -/
def Usable (W : World) (env : Env) (repo : Path) (rev : Str) (params : CompareParams) (pattern : Str) (maxFiles : Nat) (s s' : W.State) : Prop :=
  ∃ L files exts, CheckedOut W rev params.shouldPull params.gitForce s L s' ∧ Listed W s' repo pattern maxFiles files ∧
    ParsedAs W env repo params.ignoreErrors s' files exts

/-- One revision crashes the parser. -/
def FatalRevision (W : World) (env : Env) (repo : Path) (rev : Str) (params : CompareParams) (pattern : Str) (maxFiles : Nat) (s s' : W.State) : Prop :=
  ∃ L files, CheckedOut W rev params.shouldPull params.gitForce s L s' ∧ Listed W s' repo pattern maxFiles files ∧
    FatalFiles env (W.fs s') params.ignoreErrors files

/-- One of the filters is not a regular expression; the text is that of the regex crate, for the first of the two that is none. -/
def BadFilter (rx : RegexEngine) (filter : FilterParams) (why : Str) : Prop :=
  ∃ q, rx.compile q = none ∧ why = rx.errMsg q ∧
    (filter.extrinsic = some q ∨ (filter.pallet = some q ∧ ∀ q', filter.extrinsic = some q' → rx.compile q' ≠ none))

/-- Why there is no report: what comes first is what is said. -/
def NoReport (W : World) (rx : RegexEngine) (env : Env) (repo : Path) (old new : Str) (params : CompareParams) (filter : FilterParams) (pattern : Str)
    (maxFiles : Nat) (s s' : W.State) (why : Str) : Prop :=
  (DotDot pattern ∧ s' = s ∧ why = str% "Path pattern cannot contain '..'") ∨
  (¬ DotDot pattern ∧ Unusable W env repo old params pattern maxFiles s s' why) ∨
  (¬ DotDot pattern ∧ ∃ s1, Usable W env repo old params pattern maxFiles s s1 ∧
    (Unusable W env repo new params pattern maxFiles s1 s' why ∨
      (Usable W env repo new params pattern maxFiles s1 s' ∧ BadFilter rx filter why)))

/-- The comparison crashes in the parser: at the old revision, or else at the new one. -/
def ParserCrashes (W : World) (env : Env) (repo : Path) (old new : Str) (params : CompareParams) (pattern : Str) (maxFiles : Nat) (s s' : W.State) : Prop :=
  ¬ DotDot pattern ∧ (FatalRevision W env repo old params pattern maxFiles s s' ∨
    ∃ s1, Usable W env repo old params pattern maxFiles s s1 ∧ FatalRevision W env repo new params pattern maxFiles s1 s')

end Swc.Spec
