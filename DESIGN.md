# Formal model of ggwpez/substrate-weight-compare (Lean 4)

## Layout

* `lean/Verif/Model/*`  – the model: one Lean definition per Rust function, each citing file and lines in `/repo`.
* `lean/Verif/Spec/*`   – small independent specifications (arithmetic value of an equation, exact percentages,
  Substrate `Weight` semantics, finite maps, corner sets, grammar of printed equations, abstract request histories).
* `lean/Verif/Lemmas/*` – helper lemmas.
* `lean/Verif/Props/*`  – the property theorems `Cnn_…` (one file per area) with, beside each, an `example`
  showing that a concrete non-trivial case meets the hypotheses.
* `properties.jsonl` – the properties; `MANIFEST.json` – property → theorem names; `seeded/LOG.jsonl` – mutation log.

## Modelling conventions

* Rust `String`/`&str` are `Str = List Char`; Rust orders strings bytewise on UTF-8, which is the lexicographic order on
  code points, i.e. `compare` on `List Char`.
* `Result`, panic and non-termination are data: `Res α = ok a | err msg | panic | diverge`.
* `u128`/`u32` values are `Nat`; `+`/`*` of u128 go through `addU128`/`mulU128`, which know the build profile:
  `Build.debug` panics on overflow (dev/test profile), `Build.release` wraps (release/production profiles, Cargo.toml).
* `f64` is a software model of IEEE-754 binary64 (`F64`): `nan | ninf | pinf | fin q` with `q : ℚ`, every arithmetic
  operation computed exactly and then rounded to nearest-even (`rnd`), overflow to infinity, gradual underflow. Signed zeros
  are identified (a negative zero cannot arise in `percent`; comparison treats them as equal anyway).
* `BTreeMap`/`BTreeSet` are strictly sorted lists with the derived `Ord`; `HashMap` is an association list;
  iterating a `HashSet` goes through an arbitrary permutation (`HashOrder`), over which theorems quantify.
* `syn` (text → AST), `glob`, regex *search* for user-supplied patterns, the file system and the `git` binary are parameters of the
  model with arbitrary behaviour; theorems quantify over them. The fixed regexes in the code are modelled as matchers.
* The `cached` and `dashmap` crates are modelled by their documented lock/expiry behaviour.

## Trusted base

* Lean's kernel, and the axioms `propext`, `Classical.choice`, `Quot.sound`: `#print axioms` shows at most these three for every theorem listed in
  `MANIFEST.json` (`vcheck` checks it).  No own axioms, no `sorry`, no `native_decide`, no `bv_decide`, no `implemented_by`.
* The reading of the Rust sources: every model definition cites the file and the lines it models; nothing was executed.
* The modelling conventions above and these assumptions about code outside the repository:
  * `slice::sort_by` is the merge sort of Rust 1.80.0 (`rust-toolchain.toml`).  C37 is proved for a relation that allows every way of cutting,
    inserting and merging; `stableSort` is the concrete strategy and is proved to be an instance.
  * `syn` is an arbitrary function from text to items; theorems about text inside a file (range annotations) start at the token string of
    the doc attribute.  Only C79–C82 start at the text of the file: there `syn` is assumed to agree with the reader of `Model/RustText` on the
    texts concerned (C80 has this as a hypothesis); the texts in the unit tests of the repository are read as these tests expect
    (`Checks/RepoTests`, which runs the other unit tests on the model, too).  Casts (`as u64`) are assumed not to truncate (the parser drops them, so does the model; C43 states the value
    without truncation).
  * The regex classes `\w \d \s` are fixed on ASCII and arbitrary beyond (`CharClass`); the fixed regexes are modelled as matchers and the
    comments argue why greedy matching needs no backtracking.  So are the characters that `{:?}` prints as they are (`CharClass.plain`).  User-supplied regexes are arbitrary functions (`RegexEngine`, `PrintEnv.strip`).
  * Paths are lists of components (the normal form of `Path::components`); names that are not UTF-8 are outside the model.
  * `git`, `glob` and the file system are an arbitrary `World`; its state may contain all future answers of remote servers.  Only in C98 `glob` is the crate
    0.3.1 as described in `Model/Glob` (written from memory, no source at hand), on a disk that is a finite tree without links and errors (`OnDisk`).
    In C99 git does what `Spec/Clone` (`RealGit`) says that its manual says about `fetch`, `reset --hard`, `checkout` and `ls-remote`: default configuration, one
    remote called `origin`, which also gives commits by their hash, no changes to the files by others, branches stored as files, tags that a fetch does not replace.
    `Props/CloneExample` has a world that meets all of it.
  * `cached` 0.53 and `dashmap` behave as described in the header of `Model/Web.lean`; there every request has its own thread.  The four workers of the
    server are modelled in `Model/Workers` (`actix` as described in its header), and `C113_refines` proves that they only exclude interleavings.  The state of the world is one independent state per repository name.
  * `clap` 4.5 takes the names of value enums from `ValueEnum` (kebab case by `heck`), `serde` renames by `serde_derive`'s rules (`Model/Options`).
  * `clap` 4.5 scans arguments as described in `Model/CommandLine` (arguments are UTF-8; `num_args` without a terminator takes words up to the next one
    that begins with a dash; `--` ends the options); `f64::from_str` rounds correctly.
  * `actix` reads queries with `serde_urlencoded`/`form_urlencoded`, and browsers write them by the URL standard (`URLSearchParams`, query state of
    the URL parser), as described in `Model/Query`.  Decoding of bytes that are not UTF-8 and of HTML entities is arbitrary (`Utf8Lossy`, `Entities`).
  * `actix` compares paths after decoding `%XY` except for `%`, `/` and `+`, tries services in the order of registration, passes over handlers of other
    methods and answers 404 without content otherwise (`Model/Site`); a handler that panics gives no answer.
  * `sailfish` 0.8.3 escapes `<%= %>` by replacing the five characters `"&'<>` (`escapeChar`) and inserts `<%- %>` as it is; browsers read pages by the
    HTML standard, of which `Spec/Html` is the part for tags, attributes and character references (its header lists what is left out).
  * `DataTables` 1.12.1 sorts and selects as described in the header of `Model/ResultPage` and assigns the data of cells to `innerHTML`; `location.hash` follows the URL standard.
  * `comfy_table` 7.1.1 lays out tables as described in `Model/Table`; both tables of README.md come out exactly (`Checks/RepoTests`).
  * The wrapping of git's error texts by `{:?}` is kept without its escaping; texts of `ParseIntError`, I/O and syn errors are abbreviated.

## Not modelled

`syn`'s tokenizer and parser outside of what `Model/RustText` reads; how wide a text is (`unicode-width`; any function in C114) and the breaking of texts of more than 65535 columns by `comfy_table`; TLS and
HTTP framing, the
files below `/static`, the badge; logging; UTF-8 decoding of
command output (except where it panics); memory exhaustion; the size of the stack (non-termination is modelled, and the depth of evaluation in C115); latency (deadlock
freedom, termination and service under fair schedules are proved).

## The model, file by file

| model | source |
|-------|--------|
| `Model/Basic` | vocabulary: `Res`, u128 arithmetic, `BTreeMap`/`BTreeSet` |
| `Model/F64` | binary64 |
| `Model/Term` | `core/src/term.rs`, `scope.rs`, `traits.rs` |
| `Model/Format` | `core/src/lib.rs:834-889` formatters |
| `Model/Compare` | `core/src/lib.rs:52-169, 334-820` comparison, filter, ranks |
| `Model/Sort` | `sort_changes` and the standard library's merge sort |
| `Model/Syntax`, `ParsePallet`, `ParseStorage`, `Path` | `core/src/parse/*` |
| `Model/Debug` | not in the repository: `{:?}` of a string |
| `Model/Git`, `Prog` | `core/src/lib.rs:172-330` git commands, `list_files`, `compare_commits`; the same as single interactions |
| `Model/Branches`, `Startup`, `Web`, `Html`, `Ending` | `web/src/*`, and how both `main`s end |
| `Model/Query` | `web/src/main.rs:60-73` `CompareArgs` as read from a query; `web/static/{table,root,merge_requests}.js` |
| `Model/Page` | `web/templates/*.stpl` (all of their text, verbatim), `web/src/html.rs` |
| `Model/StartPage` | `web/static/root.js` as a machine driven by the user and the answers of the server |
| `Model/BranchJson` | `web/src/main.rs:206-221, 280-286`: query and JSON answer of `/branches` (`serde_json`'s escapes) |
| `Model/MergeRequests` | `web/static/merge_requests.js`: sorting, rows, double clicks, parameters of the page |
| `Model/CommandLine` | the definitions for `clap` in `cli/src/main.rs`, `core/src/lib.rs`, `web/src/main.rs`; the part of `clap` they use; `main` of the tool |
| `Model/Site` | `web/src/main.rs:95-190, 212-374`: start of the server, routes, handlers, the running site with all its requests |
| `Model/ResultPage` | `web/static/table.js`: order of the table, row in the address, controls |
| `Model/MrTable` | `web/static/merge_requests.js:45-86`: the order in which `DataTables` shows the merge requests |
| `Model/HttpCache` | `web/src/main.rs:355-359, 377-381`: the headers for caches |
| `Model/Version` | `core/src/lib.rs:34-41`, `core/src/testing.rs:12-20`, `Makefile`: the version of a build |
| `Model/Workers` | `web/src/main.rs:144-173`: the workers of `actix` |
| `Model/Theme` | `web/static/darkmode.js` |
| `Model/Steps` | `web/static/root.js:80-137`: the steps of the form |
| `Model/Glob` | the part of the `glob` crate behind `list_files` (`core/src/lib.rs:304-330`), on a disk that is a tree |
| `Model/Scripts` | the identifiers used in `web/static/*.js`, `loading`, the files in `web/static` |
| `Model/Cli`, `Options` | `cli/src/main.rs`, names of options |
| `Model/Table` | the text of the tables (`comfy_table`), `cli/src/main.rs` `print` |
| `Model/RustText` | not in the repository: a reader for the part of Rust that weight files are written in; stands for `syn` in C79–C82 |

`Props/Web.lean` proves that the interaction form (`Prog`) of `compare_commits` runs like the function of `Model/Git`, so the results about
one comparison carry over to comparisons inside the server.

## Per property

All properties are proved, in the form given in `properties.jsonl` (statements that turned out to be false of the code were corrected there to
say what is true, and the counterexample is a theorem, see below).

| id | modelled by | proof idea |
|----|-------------|------------|
| C01 | `Term.eval` with build mode and fuel; spec `Spec.value : (Str → Nat) → Term → Nat` | induction on term; release = value mod 2^128 by ring-hom of mod; debug exact-or-panic |
| C02 | `eval`, `freeVars` | induction; error witness is a variable not in scope |
| C03 | `freeVars`, `boundVars`; spec `Spec.Occurs` (inductive) | induction + sorted-set membership lemmas |
| C04 | `substitute` | induction (substitution lemma) |
| C05 | `Scope` ops over sorted lists; spec: function `Str → Option T` | refinement: `get` commutes with every op, invariants by induction on op list |
| C06 | fuel-indexed `eval` | rank function on variables; diverges for all fuel on self reference |
| C07 | `Spec.value` | induction |
| C08 | `ChromaticTerm.eval`, `simplify` | induction on fuel/term |
| C09 | `simplify`, `forValues` | induction |
| C10 | `spliceAdd` | functional induction |
| C11 | `intoChromatic`; spec `Anchored` | both directions by induction, all-ones assignment for necessity |
| C12 | `fmtTokens` (token-level Display); spec: precedence parser | printer/parser round-trip by induction; counterexamples by evaluation; for the text: two readings of one text compared token by token, by induction with the state of the reader (`Props/EquationText`) |
| C13 | `fmtScalar/Time/Proof` over the F64 model | rounding error lemmas |
| C14 | `fmtEquation` | corollary of C03 |
| C15 | `visit`, `findLargestFactor`, `sanityCheck`; spec `Subterm` | induction |
| C16–C19 | `percent` over F64 | monotonicity, exactness and error lemmas of `rnd` |
| C20–C31 | `extendScopedComponents`, `instanceComponent`, `compareTerms`, `compareExtrinsics` | corner enumeration via testBit; sorted-set extensionality for order independence; C24 by coordinate-wise quasi-linearity of a ratio of affine functions plus monotone rounding |
| C32–C37 | `compareFiles`, `filterChanges`, `sortChanges` (relation covering every merge strategy of the std stable sort) | sorted-set and list lemmas; invariants of merge steps |
| C38–C42 | `listFiles`, `gitCheckout`, `gitPull`, `gitReset`, `compareCommits` over a world with arbitrary git behaviour, recording a trace | case analysis on traces |
| C43–C53 | AST `Expr`/`Item`, all parse functions; spec: `Spec.weightOf` Substrate semantics | mutual induction on expressions |
| C54–C56 | `Cache` state machine; interleaving transition system of request threads with locks | invariants by induction over histories/schedules |
| C57–C61, C67 | `Model/Html`, `Model/Cli`; spec: terminal colours, CSV reader, decimal reader | case analysis, F64 lemmas, string lemmas |
| C62–C66 | `Model/Branches`, `Startup`, `Options`; spec: `Spec/Branches` (what an output of `ls-remote` lists and what garbles it, from the meaning of trimming, lines and removal) | string lemmas; relations and functions shown equal in `Props/BranchText` |
| C68 | no new model; spec: `Spec/Source` (ranges read off the source of both versions, what a runtime charges) | composition of C24, C25, C33, C41, C44, C45, C47 |
| C69–C71 | `Model/Query`: form encoding, `serde`'s visitor for `CompareArgs`, the links written by `table.js`, `root.js`, `merge_requests.js`; spec: relation between texts and their spellings, what pairs ask for | induction on bytes; one fold per field for the visitor |
| C72–C75 | `Model/Page`; spec: `Spec/Html`, a tokenizer and readers for inputs, lists, tables and lines | the text of a page is cut where the tokenizer is outside of tags, so that tokens of parts append; one invariant of the table reader per part of a row |
| C76–C78 | `Model/Cli`, `Web`, `Git`; spec: `Spec/Commands` (files read one by one, git commands a program can issue, a moved repository) | composition of C41, C49, C53; invariant of the programs of all requests over reachable states |
| C79–C81 | `Model/RustText`: lexer, token trees, precedence parser for items and expressions; spec: `Spec/RustGrammar` (grammar over tokens, layouts of tokens), `Spec/WeightFile` (generated files as numbers and tokens), `Spec/ConstText` (the same for storage and overhead files) | lexer and parser accept every layout of every sentence of the grammar (mutual induction on derivations); composed with C43–C48 and C24, C33, C41, resp. C50–C52 |
| C82 | nothing new: composes query (C69), threads and cache (C54, C55), `git` and listing (C41), reader (C79), worst case (C80), sorting (C37) and page (C73) | `C82_example` runs a concrete server on generated files and shows that all hypotheses hold |
| C83 | `Model/StartPage`; spec: `Spec/StartPage` (visits, the repository chosen last, the answer received last, patient users) | invariants by induction over visits; what each event asks of the server |
| C84 | `Model/BranchJson`, `Web`, `StartPage`; spec: `Spec/Json` (a reader for JSON), `Spec/BranchList` (what a query asks for, what git printed in a reachable state) | printer/reader round trip; invariant of the programs of listing requests over reachable states; composed with C62 and C83 |
| C85 | `Model/MergeRequests`; spec: `Spec/MergeRequests` (stable order by date, what a row shows, mentions of a word in any case, names on GitHub) | induction over lists and over the pairs of the query; composed with C71, C75, C84 |
| C86 | `Model/CommandLine`; spec: `Spec/CommandLine` (what is given and the ways to write it, numbers, paths, names, what each option says) | the scanner of `clap` equals the inductive relation `Written` (induction over the words, both directions, for any table of arguments: `Lemmas/Scan`), the readers of values equal their grammars (`Lemmas/Values`); composed with C76 |
| C87 | nothing new in the model; spec: `Spec/Report` (costs, ranges and refusals of pairs of functions as numbers in a file, the functions of a revision, the complete report) | the functions read from the files (C79) are related to the equations, a corner is a point of the documented ranges, each method reports at its points; composed with C32, C33, C41 (`C87_commits`), C36, C37, C54, C55, C73 (`C87_answer`, `C87_served`), C83 (`C87_button`) |
| C88 | `Model/Compare`; spec: `Spec/Messages` | case analysis of `extend_scoped_components` and `instance_component` |
| C89 | `Model/Site` on top of `Web`, `Query`, `BranchJson`, `Page`, `Startup`, `CommandLine`; spec: `Spec/Site` (addresses and the ways to write them, links, what git was run for and what it answered) | decoding equals the relation `WritesPath`; invariant `Doing` over all reachable states (where each request is, and the one log entry that ends it); composed with C54, C56, C65, C66, C69, C74, C75, C83, C84, C86, C87 |
| C90 | `Model/Web`, `Model/Site`, `Model/ParsePallet`, `Model/Compare`; spec: `Spec/Alive` (numbers that fit, files that do no harm, peaceful worlds, runs without further requests) | bounds carried from literals through parsing, ranges and comparison to the report; predicate `EndsWell` on programs, preserved by every answer of the world; invariant `Healthy`/`Unharmed` over all reachable states; composed with C54, C56, C62, C73, C79, C89 |
| C91 | `Model/Site`, `Model/StartPage`, `Model/Web`; spec: `Spec/Click` (what the request finds), `Spec/Alive` (runs) | invariant `Solo` of the only unfinished request along every run, with the measure of C56 for its end; composed with C83, C87, C89, C90 |
| C92 | `Model/Cli`, `Model/CommandLine`, `Model/Compare`, `Model/Page`; spec: `Spec/Equation` (spelling of equations), `Spec/Printed` (tables, values and rows of a complete report, texts of costs and of scopes) | C86 for the arguments, C37/C60/C61 for the rows, C87 for the numbers, C12 and the shape of generated equations for their texts; one induction for both `panic` and `diverge` (`Avoids`) |
| C93 | `Model/Web`, `Model/Site`; spec: `Spec/Crowd` (`Steady`: states of a repository that nothing the server does leaves, if asked for certain revisions only; `Company`: the others ask for such; `Comparable`) | invariant `Kept`: from a moment on the repository stays in a steady state and every comparison recorded began in one; C54/C55 for what is behind an answer, C87 for the page, C90 for liveness |
| C94 | `Model/ResultPage` on top of `Query`, `Page`, `Site`; spec: `Spec/ResultPage` (what the user wants, visits, stable sorting, the worse first) | C70 for each control, induction over visits with C72 and C93 for the pages; keys of the rows from C73 as numbers of JavaScript, whose order is that of the keys below 2^53 (`rnd_lt`), C57 for what the keys mean; identifiers of rows are unique by C87 |
| C95 | `Model/Theme`: class lists by the DOM standard, the script, browsers; spec: `Spec/Theme` (classes as words of a text, what becomes of an element, the theme chosen) | replacing in a class list is replacing in each class (`classTokens_replace`), the effect on one element (`C95_element`) composes (`themed_trans`), invariant over events |
| C96 | `Model/Scripts`, `Model/Page`; spec: `Spec/Scripts` (elements with an identifier, scripts of a page) | what scripts see of the constant parts of a page is computed by the kernel; lists, messages and rows add nothing to it (`result_marks`, on top of the tokens of C73–C75 and C94) |
| C97 | `Model/Steps`, `Model/StartPage`; spec: `Spec/Steps` (steps of a form in the tokens of a page, users who wait) | invariant `AtStep` over clicks; invariant `waits_inv` over visits, which makes users who wait `Patient` in the sense of C83 |
| C98 | `Model/Glob`; spec: `Spec/Glob` (what the text of a pattern describes, names that lead from a directory to a file) | the matcher with its three results is right (`matchesFrom_spec`, with an invariant on suffixes for the early exit), the tokens of a component describe what its text describes (`parse_fits`), induction over the components for the walk (`walk_mem`), over the path of the repository (`walk_goes`); for patterns with one `**`, matches are without repetition (`walk_nodup`), which gives the limit exactly |
| C99 | `Model/Git` with `Spec/Clone`: what a clone is, what a name means in it and what git commands do (`RealGit`), what a revision should be (`Obtains`), clones in order (`WellKept`) | the commands of a checkout one after the other (`C99_checkout`); being in order is steady under what the server does for proper names (`C99_quiet`), which makes revisions comparable in the sense of C93; C98 for the files.  The negations are runs in the world of `Props/CloneExample` |
| C100 | `compareCommits` with all its error texts, `Model/Debug` (`{:?}` of strings), `Site` with `Spec/Failure`: what goes wrong (`NoReport`), texts in quotes (`Quoted`, a relation) | each step fails exactly as specified (`ErrsTo`, an iff for every step), composed in order; `C100_page` by the log of the server, `C100_served` by the run of a single request as in C91 |
| C101 | `compareCommits` on two machines (`elsewhere`), `Model/Glob`, `Site` with `Spec/Outside`: the same in the repository (`SameInside`), files above it (`Outside`), patterns that climb (`climbing`) | the walk of ordinary patterns does not look up (`walk_local`), so that all steps do the same on both machines (`Alike`, a relation closed under sequence); negation: the walk of `.[.]` goes up and finds one file, whose text is in the error page (`C101_false_page`, with `fails_core` of C100) and can be read off it (`C101_read`) |
| C102 | `compareExtrinsics`, `compareFiles` with two methods: equal up to the method (`SameReport`), which method looks at which points (`ExactOf`, `Covers`) | C25 (the reported point is the maximal corner, the last of several) determines the report by the set of corners; sets of corners are equal or contained; for added calls the smallest corner is the one of Base |
| C103 | `compareExtrinsics` on three versions (`SameRanges`, `OnePoint`) | both points give the variables of a version the same numbers (C31), so its value is the same; negations by witnesses |
| C104 | `compareExtrinsics` (Base), `extendScopedComponents`, `keepChange`, `sortChanges`, `readCommandLine` | C31 and evaluation without components; corners counted by an injection into `Fin n → Bool` that is onto if instances differ; C37; C86; negations for all numbers and thresholds |
| C105 | `compareExtrinsics`, `extendScopedComponents`, `instanceComponent`, `freeVars`, `eval` | renaming by a permutation commutes with evaluation, corners and instances; both directions by the inverse; one-sided renaming joins corners of the two versions; negation for all `c + k * n` |
| C106 | `Ending` (`Res.status`, `lastWords`, `secure`, `serverMain`), `cliMain`, `startup` | C100 and C76 composed with the command line; the first failing step by induction on the lists of files and repositories; C92 for the status; crashes (`Spec/Crash`, `Props/Crash`) from C108, a search through the rows of the table and the refinement of `Act` by `Prog`; dead branch from git not starting without a directory |
| C107 | `compareFiles`, `filterChanges`, `sortChanges`, `showDiff`, `compareCommits` | selection by names from C32 and C33 (strictly ordered lists with the same members are equal); sorting commutes with selecting because the result of the merge sort is determined (C37); C41 for commits |
| C108 | all of `Model/ParsePallet`; spec: `Spec/Language` (grammars `Reads1`, `Reads2` of understood and `Fatal1`, `Fatal2` of fatal expressions, `Says`, `Ranges`, `Yields`, `FatalFn`, `FatalFile`) | both directions by induction on expressions and on derivations; what is understood as a weight is not fatal as a number, so that the fall-back adds only `Fatal1`; first annotation is unique; maps determined by look-ups; `C108_crash_iff` composes this with the steps of C100 (`CrashesIn`) |
| C109 | `Model/Prog` (programs as trees of git commands, walks and reads), `Model/Web`; spec: `Spec/Work` (`Does`: what a program can do for arbitrary answers of the world; `RevisionWork`; `OwnSteps`, `mostSteps`; `LastResult`, `Recomputing`) | `Does` is inverted over the monadic structure of `compareCommitsP`; a budget invariant over the steps of a request; an invariant that relates cache and history, both directions; `C109_false_limit` runs any number of comparisons in the example repository |
| C110 | all of `Model/ParseStorage`; spec: `Spec/Constants` (grammars `ReadsSum`, `FatalSum`, `ReadsOverhead`, `FatalOverhead`; `Kind` with `Skipped`, `Gives`, `FatalIn`, `RefusedIn`; `CountsAs`, `FatalGuess`) | both directions by induction on expressions and on derivations; the traversal of nested modules equals a search through the list of definitions (C50); C108 for weight functions |
| C111 | `Model/Web`, `Model/Site`; spec: `Spec/Deaths` (`CrashesParser`), `Spec/Site` (`RunsGit`, `ListingFails`, `ListingCrashes`, `DiedOf`) | invariant `Poison` over all reachable states (a poisoned cache has a culprit in the log, and it is the last comparison); invariant `Doing` records why each request ended; composed with C108 and C90 |
| C112 | `Model/Web`, `Model/Site`; spec: `Spec/Fair` (`Endless`, `EndlessSite`, `FairTo`) | in a fair run every request comes to rest where it cannot make a step (well-foundedness of the steps of one request); whoever holds the mutex forever waits for a shard; with writers preferred nobody begins to hold that shard, and whoever holds it gives it back; hence the mutex becomes free again and again, and then nobody but the finished is stuck. The negative part builds the run by choice over stages whose requests are known exactly | release builds for the answers; fairness is strong fairness, a hypothesis about the scheduler and the fairness of `std::sync::Mutex`; `writerPref` is a parameter of the model since it depends on `dashmap`, whose source is not here |
| C113 | `Model/Workers`; spec: `Spec/Workers` (`InProgress`, `DealtWith`, `EndlessPool`, `FairPool`) | refinement: the server with workers makes only steps of `Model/Site`; invariant `PoolOk` (which worker is in which handler, which connection has which place); no deadlock from C56, termination by a lexicographic order, liveness from C112: every worker leaves its handler, hence looks at every request that waits | any number of workers; one request per connection; panics end the connection, not the worker |
| C114 | `Model/Table` (layout of a table, `say`, `Shown.text`, `cliStdout`); spec: `Spec/Table` (`readTable`, `CleanCell`, `SeenAs`, `Legible`) | the lines of a table classified (rule or row) by induction over rows; reading inverts drawing because bars and line breaks occur only as separators; the terminal of C59 is a homomorphism on closed texts, so it commutes with drawing; lengths by summing over columns |
| C115 | `Model/Term`, `Model/Compare`; spec: `Spec/Cost` (`Evals`: natural semantics with number of steps and depth; `parts`, `height`, `nesting`) | induction over fuel and equation in both directions; corners are in bijection with the subsets of the components with two values; induction over `Reads1`/`Reads2` (C108); for unbounded depth a text is written for any list of functions (`C79_every`: every token on a line of its own is a layout) and read by C79; for the bound every token takes a character and every part of an expression a token, by induction over the fuel of all parsers of `Model/RustText` |
| C116 | `Model/CommandLine`, `Model/StartPage`, `Model/MergeRequests`, `Model/Site`; spec: `Spec/Deployment` (the documented lines) | computation for the four lines; C83, C85, C86, C89 for all visits |
| C117 | `Model/MrTable`; spec: `Spec/Calendar` (leap years, lengths of months, American dates), `StablySorted` | induction over the rows that are added; the calendar by induction over years |
| C118 | composes `C24`/`C87`/`C92`; spec: `Spec/Silence` (growth in exact arithmetic, what mentions a call) | rounding errors of percentages and ranks; contraposition through filter and table |
| C119 | `Model/HttpCache`; spec: `Spec/HttpCache` (RFC 9111: what must be asked again, what is fresh; readers behind caches), servers as a function of time | induction on the number of caches; composes `C65`, `C89` |
| C120 | `Model/Version`; spec: `Spec/Version` (Semantic Versioning, `git describe --always` of a history with release tags) | unique decomposition of texts at `+`, `.`, `-g`; composes `C65`, `C69`, `C89` |
| C121 | `compareFiles`, `cliCompareFiles`, `compareCommits`; spec: `ofFiles`, `NarrowerPattern` | C32 and C33 for both comparisons, equality of sorted lists with the same elements, C37_part; files by induction on the list |
| C122 | `compareExtrinsics`, `compareFiles`; spec: `SamePoints`, `Slower`, `MoreComponents`, `SlowerWithMore`, `Cheaper`, `withWork` | C25 (the row is a point of the comparison and the largest of all) for both comparisons, C17 and C18 extended to vanishing weights |
| C123 | `percent`, `compareExtrinsics`; spec: `SameCorners`, `Scaled`, `scaleBy` | weights below 2^53 are exact, so only the ratio is rounded; C25 for both comparisons, the order of points decides ties |
| C124 | `percent`, `compareExtrinsics`; spec: `CommonWork`, `withWork` | C17 for ratios at every point, C25 for both comparisons |

## Where the code does not do what one would expect

Each item is a theorem (concrete witness) unless marked *(reading)*.

Equations and numbers
* A bare variable is worth its number in both dimensions: `C11_bare_variable_leaks`, `C43_false_unanchored`.
* A product of two two-dimensional equations panics in `ChromaticTerm::eval` although each dimension can be evaluated: `C08_converse_false`.
* The printed equation can denote something else: a factor that prints as nothing is dropped instead of making the product zero
  (`C12_vanishing_product_misprinted`), and brackets are lost (`C12_brackets_lost`).  A generated function with `reads(0)` times a parameter is shown as if
  it had one read (`C92_false_counts`); all other equations of generated functions are printed correctly (`C92_rows`, `C92_page`).
* The sanity check sees only scalar literals, not weights or computed factors: `C15_value_factor_not_flagged`.
* From 2^53 on different weights can be reported as a change of 0%: `C16_sign_lost_above`.

Comparison
* "Unchanged" ignores underscores in variable names, so `READ` and `READ_` are the same equation with different values: `C28_false_with_underscores`.
* Added and removed calls are reported at the all-low corner, also by the worst-case methods: `C25_added_not_worst`.
* Equations that are not affine break the worst case (`C24_false_without_affinity`); an old version that costs nothing at the minimum is reported as
  NaN (`C24_false_with_zero_old`), and NaN passes every threshold (`C36_keeps_exactly`).
* The comparison of two errors is `Less` both ways; errors come first but in reverse order: `C37_errors_not_stable`, `C37_errors_reversed`.
* The scope of a comparison lacks the `WEIGHT_PER_NANOS` constants, so they are treated as components: `C80_false_nanos`.

Parsing
* A component whose name has an underscore loses its annotated range: `C48_underscore_ignored`, `C48_underscore_clash`.
* `ignore_errors` does not cover panics: `C49_panic_exists`, `C49_big_literal`.
* A literal factor of a weight with a proof part is refused: `C44_literal_factor_refused`.  Arguments after a trailing comma are ignored where none are
  expected: `C43_trailing_comma_ignored`.
* One method that is no weight function makes the whole `impl` block unusable (`C45_*`).
* Storage expressions with parentheses or casts, and a bare literal as overhead, are refused: `C50_false_refused`, `C51_false_literal`.
* Type and struct paths are compared with their segments concatenated, so `Runtime::DbWeight` passes for `RuntimeDbWeight`: `C50_false_path`.
* With file-name naming equally named files collide, and a path outside the repository can collide with one inside: `C53_collision`.

Files and git
* The limit of `list_files` counts matches before duplicates are removed: `C38_duplicates_count`.
* A revision beginning with `-` is passed to git as an option, also when it comes from a request to the server: `C77_false_option`.

Web server
* A panic inside a comparison poisons the cache mutex and all later comparisons of all repositories panic: `C54_poisoned_forever`,
  `C54_poison_possible`.  For the site: no request for a comparison in a known repository is ever answered again, `C90_silenced`; a number of 2^128 or more in
  a weight file is enough, `C90_example`.
* The check for a missing repository directory comes after git has been run in it and so never finds anything: `C106_false_directory`.  An unusable certificate
  is a panic, not an error: `C106_server`.
* The status of the command line tool does not depend on the changes found: `C106_false_gate`.
* One mutex serialises the comparisons of all repositories: `C55_one_at_a_time`.
* The worst-case methods report the smallest weight of an added or removed call (`C102_added`).  The same version of a call can have different values in two
  comparisons (`C103_false_ranges`, `C103_false_worst`), and changes that are hidden step by step can be shown as a whole (`C103_false_threshold`).
- The README is wrong about three options: Base is not the constant factor if a component is annotated with a minimum above zero
  (`C104_false_base`); a change of 50 % is shown for thresholds up to 50, not from 50 on (`C104_false_threshold`); rows are sorted by the signed
  percentage, so absolute values do not ascend (`C104_false_order`).  It also describes an option "Abs Threshold" that does not exist.
* Renaming a parameter in one version only makes the worst-case methods compare the old version at its cheapest with the new version at its dearest, so a call
  that costs the same as before is reported as changed (`C105_false_one_sided`, `C105_false_rename`).
* `refs/heads/` is removed anywhere inside a name: `C62_false_nested`; the listing can panic: `C62_panic_nested`.
* The dot in the origin regex is not escaped: `C63_other_host`.
* `/version` reflects the query as HTML: `C65_reflects`.
* The absolute column is wrong or panics from 2^127 on: `C58_false_above`, `C58_panic_above`; the relative key is capped: `C57_capped`.
* The start page and the list of merge requests put revisions into the link without encoding them: `+` arrives as a space (`C71_false_plus`), `#`
  cuts the query off (`C71_false_hash`).  They know a path pattern for `polkadot-sdk` only, while the server serves `polkadot` by default
  (`C71_false_default`), and send repository names in lower case, which the server compares exactly (`C71_false_case`).
* HTML entities in `old`, `new` and `path_pattern` are decoded although the link is not HTML, so a revision such as `a&lt;b` is changed: `C70_false_entities`.
* `compare.stpl` inserts errors, warnings, row identifiers, equations and code links into the page without escaping, so that a revision such as
  `HEAD@{"><b>}` adds elements to the page (`C73_false_escape`) and a message can be shown wrongly (`C73_false_message`).
* On the result page, clearing a field does nothing, so a filter cannot be removed (`C94_false_empty`); a threshold with a fraction is sent and refused
  (`C94_false_threshold`); links to rows do not work for paths with characters that are encoded in addresses (`C94_false_anchor`).
* If the browser restores the switch for dark pages on reload, the stored setting is overwritten (`C95_false_restored`).
* The check for `..` does not keep path patterns inside the repository: `.?` and `.*` match `..` as well (`C98_false_climb`).  The path of the repository is
  part of the pattern: if it has brackets nothing is found (`C98_false_brackets`), and written `./a` it is not recognised in the paths found
  (`C98_false_dotted`).  Directories are listed like files (`C98_false_directory`); with two `**` a file can count twice (`C98_false_twice`).
  Worse, a pattern such as `.[.]/.[.]/etc/passwd` makes the error page show the whole text of any readable text file of the machine that is no Rust program, if
  the request says `ignore_errors=false` (`C101_false_listed`, `C101_false_text`, `C101_false_page`).
* `--git-pull` "ensures that you get the newest commit on a branch": only the first time, since `git fetch origin x` does not move the branch of the clone, which
  `git checkout x` then takes (`C99_false_newest`); a name that is no revision but a file is not refused, and what happens to be checked out is compared
  (`C99_false_path`).  The server resets the branch that is checked out, so that comparing with this branch compares a revision with itself (`C99_false_moved`);
  it cannot compare a new tag of the origin before everything has been fetched (`C99_false_tag_new`), and never sees that a tag was moved (`C99_false_tag`).
  A request for `a:origin/x` is refused but makes the server take `a` for `x` from then on, for everybody (`C99_false_poison`).
* The options for repositories have no quotes around their values: a name with a blank is cut (`C72_false_blank`, `C75_false_blank`).
* `root.js` looks for the stored revision among pairs of name and hash and never finds it, and for the stored repository in a list that is still empty:
  local storage has no effect (`C83_forgets`).  Answers of `/branches` are not matched with the selected repository (`C83_race`), a failed request
  leaves the list of the previous repository (`C83_failed`), and without a branch `master` the button asks for revisions called `null` (`C83_null`).
  Two buttons share the id `fetch`, so the second one is dead (`C96_false_fetch`).
  A failed request leaves the page covered for ever (`C97_false_failed`), and the fields of the summary can be edited without effect (`C97_false_summary`).
* One merge request whose fork was deleted ends the list of merge requests, with count 0 and the page waiting forever (`C85_deleted`).  For a repository
  without preset (that is, any but `polkadot-sdk`) every double click throws (`C85_throws`).  `$.param` does not undo what `searchParams` does to
  special characters (`C85_false_space`).  Titles and names of branches are inserted into the table as
  HTML by DataTables: types like `Vec<T>` disappear (`C85_false_title`), and whoever opens a merge request can run scripts on the page
  (`C85_false_markup`); without `<` and `&` the cells show what they should (`C85_cells`).
* The table of the result page is never closed (`C96_false_table`); the handler in `merge_requests.js` calls a function that is defined on another page only
  *(reading)*.  Repositories whose names begin with a slash are outside of the root of the server (`C89_below`).
* New and removed calls are reported, by the worst-case methods, with what they cost for the *smallest* parameters (`Reported` in `Spec/Report`): there is only
  one version, all changes are alike and the first corner is taken.  Warnings about storage accesses only exist for constant numbers in files in the current
  style (`Weight::from_parts`): `reads(1000 * n)` or the older styles are never warned about.  Two versions with equal costs in different styles are called
  changed, and a component called like a storage cost up to underscores can hide a change (`KindOf`).
* `parse files` gives its argument an index and a long name, which `clap` refuses with a panic in debug builds (`C86_false_parse`); `--format json` and
  `brief-human` are offered but always end with an error (`C86_false_formats`).  A negative threshold is only accepted after `=`, a revision after
  `--change added` is taken for another kind of change (examples at the end of `Props/CommandLine`).
* The handler `/repos` is defined but not registered (example at the end of `Props/Site`); all pages refer to a `favicon.ico` that the server does not have
  (same place).
* The error page offers an example for the repository `substrate`, which the server does not know by default: the link leads to the error page again
  (`C89_example_unknown`).

Command line
* CSV with `print_terms` lacks a comma, so rows have 7 columns under a header of 8: `C60_false_with_terms`.  CSV shows no errors: `C61_csv_silent`, and
  ignores `--strip-path-prefix`: `C60_strip_ignored`.
* An invalid `--strip-path-prefix` panics: `C61_panic_bad_regex`.  The formats `brief-human` and `json` are accepted and then refused:
  `C61_unsupported`.  `--unit weight` is refused although the web accepts it: `C64_cli_weight_refused`.
* `parse files` prints the number of extrinsics as the number of files: `C76_false_count`.
- C109: results are never dropped when they expire, only when the same comparison is asked for again, and their number is not limited (`#[cached(time = 600)]` without `size`, `web/src/main.rs:388`). Since the pattern and the filters are part of the key, anyone can make the server keep any number of results (`C109_grows`, `C109_false_limit`). Walks and reads of one comparison are bounded by what is asked for, but the matches of a single piece of the pattern are all collected before they are counted.
- C110: the overhead parser evaluates the value of every constant of type `Weight` before it looks at its name (`core/src/parse/overhead.rs:66-87`). A constant that has nothing to do with overhead can therefore crash it (`exLimit`). The storage parser looks at the name first.
- C106: `--strip-path-prefix` with a pattern that is no regular expression is a panic (status 101) and not an error, and only if there is a row to print as a table; with `--format csv` the option is ignored (`C106_crash`, `exStripStatus`).
- C112: a comparison takes the mutex of the cache first and waits for the write lock of its shard while it holds it (`web/src/main.rs:388-420`). If the lock of `dashmap` lets readers in while a writer waits (as far as we remember the one of version 6.0.1 does; its source is not available here), overlapping listings of branches in the same shard keep all comparisons, of all repositories, waiting for as long as they keep coming (`C112_starved`, `C112_starved_all`).
- C113: the handlers are `async` but never `await`, and there are four workers (`web/src/main.rs:160`). Four requests that wait for the mutex of the cache (or for git) keep the whole server from answering anything, even `/version` (`C113_fills`, `C113_example`), and one comparison keeps all requests waiting that came to the same worker, although others are idle (`C113_queued`).
- C114: colours and tables do not go together: the colour sequences are counted as text, so that on a terminal every line with a coloured percentage is seven columns shorter than the lines around it (`C114_coloured`; the tables in README.md show it).  A `|` in the name of a file makes one cell look like two, also in Markdown (`C114_false_bar`).  With `--verbose` the notice `No changes found.` is in the log and an empty line is printed instead (`C114_notice`).  An error under `--print-terms` has five cells in a table of eight columns; the missing ones are blank (`C114_tool`).
- C115: equations are evaluated (and read, simplified, printed and dropped) by recursion whose depth is not limited.  A chain of `n` calls `.saturating_add(…)` makes an equation of height above `n`, so that for every size of the stack there is a weight file that overflows it (`C115_no_limit`); such an overflow is no panic that could be caught but ends the process, and on the server a revision with such a file can be asked for by anybody.  That `SimpleTerm::eval` is exponential in a scope of equations (`C115_doubling`) cannot happen in the tool, whose scopes have numbers only.
- C116: only `polkadot-sdk` has a path pattern in `common.js`, but the README, `docker-compose.yml` and the default of `--repos` serve other repositories only, so on such a server neither the start page nor the list of merge requests leads to a comparison (`C116_useless`, `C116_no_request`); only addresses written by hand do.  (`repo in path_pattern_presets` also holds for names like `toString`, see `Model/Query`.)  Not modelled: the health check of `docker-compose.yml` asks with plain HTTP for a port on which the given certificate makes the server speak TLS.
- C117: the list of merge requests is sorted by the script, newest first, but then again by the table, by the text of the date (`aaSorting: [[4, "desc"]]`); with American dates `9/30/2024` is above `10/1/2024` (`C117_american`, `C117_not_newest`).
- C118: a call that is not shown has not become (much) more expensive, but it may have become much cheaper for some parameters, because the largest change is compared with the threshold (`C118_savings`); with `base` and `asymptotic` it may also have become much more expensive (`C118_elsewhere`); and the format `csv` says nothing of calls that could not be compared.
- C119: `no-cache` and `max-age=600` are sent together for the version and the badge; the first one makes the second one pointless.  The check `/version?is=` and all pages are sent without any header, so caches may guess: after a rollback a check can pass although the version is no longer deployed (`C119_rollback`), and pages with comparisons can be older than the ten minutes of the server's own cache (`C119_unsaid`).
- C120: `VERSION_DIRTY` looks for `dirty` in the version, but git is asked without `--dirty`, so it is false whatever was changed (`C120_dirty`); it is not used either.  The comment of `VERSION` gives an example with the name `swc`, which the version does not contain.  Builds from crates.io cannot be told apart by the check of the version (`C120_unknown`).
- C12: numbers in printed equations are abbreviated, so with `--print-terms` the old and the new equation of a changed row can be the same text (`C12_abbreviated`); how far apart such equations can be is bounded by `C12_near`.
- C121: `compare files` names calls by the name of the file alone, so of two files with the same name in different directories only the first is compared (`C121_false_directories`).
- C122: builds without overflow checks wrap sums around, so a call with more work can be shown as a saving of 100 % (`C122_false_overflow`); the assumption on sums is only needed there.
- C123: weights of 2^53 and more are rounded before they are divided, so a change can be seen in one unit and not in another (`C123_false_large`).

## Mutation testing

`seeded/LOG.jsonl` has one line per wrong program: the definition of the model that was changed in a scratch copy, the change, the claim it breaks, the
theorems whose proofs failed or that depend on such a proof, and the theorems that were tightened as a consequence.  Lines whose claim begins with
"none" are controls: changes that break no claim.
