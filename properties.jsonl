{"id": "C01", "title": "Evaluating an equation gives its arithmetic value", "statement": "If every variable of a weight equation is bound to a number in the scope and no intermediate result leaves u128, SimpleTerm::eval returns Ok of exactly the value obtained by ordinary arithmetic on the equation; in an overflow-wrapping (release) build it always returns that value modulo 2^128, and in an overflow-checking build it never returns a wrong number: it either returns the exact value or panics.", "quantifier": "all equations (any depth), all number-valued scopes, both overflow modes", "why_tests_cant": "Equations and scopes are unbounded; overflow appears only at extreme values.", "anchors": ["core/src/term.rs: SimpleTerm::eval", "core/src/scope.rs: Scope::get"]}
{"id": "C02", "title": "Evaluation fails exactly on unbound variables", "statement": "For a scope that binds variables to numbers, eval returns Err if and only if the equation mentions a variable that the scope does not bind (overflow panics aside), and the error names such a variable; free_vars is empty exactly in the other case.", "quantifier": "all equations, all number-valued scopes", "why_tests_cant": "Needs every equation shape and every scope.", "anchors": ["core/src/term.rs: SimpleTerm::eval, Term::free_vars"]}
{"id": "C03", "title": "free_vars and bound_vars partition the variables", "statement": "For every equation and scope, every variable occurring in the equation is reported by exactly one of free_vars and bound_vars, by bound_vars exactly if the scope has a binding for it, and nothing else is reported.", "quantifier": "all equations, all scopes, all value types", "why_tests_cant": "Universal over trees and scopes.", "anchors": ["core/src/term.rs: Term::free_vars, Term::bound_vars"]}
{"id": "C04", "title": "Substitution means what it says", "statement": "Evaluating an equation after substitute(x, u) gives the same outcome as evaluating the original equation in the scope where x is bound to u's number; afterwards x is no longer a variable of the equation unless u mentions it; substituting an absent variable changes nothing.", "quantifier": "all equations, variables, replacement terms and scopes", "why_tests_cant": "Universal over trees.", "anchors": ["core/src/term.rs: Term::substitute, Term::into_substituted"]}
{"id": "C05", "title": "A scope behaves like a map", "statement": "Scope get/put_var/with_var/merge/extend/len/is_empty/as_vec behave as a finite map from exact names to values, for every history of insertions: get returns the last value put under that name, merge and extend prefer the right operand, as_vec is sorted by name without duplicates and lists exactly the bindings.", "quantifier": "all sequences of scope operations, all names and values", "why_tests_cant": "Histories are unbounded.", "anchors": ["core/src/scope.rs: Scope"]}
{"id": "C06", "title": "Evaluation terminates unless the scope is cyclic", "statement": "For every equation from which no cyclic binding of the scope is reachable, eval returns (a value, an error or an overflow panic); an equation from which a cycle is reachable never evaluates to a value, and in a wrapping build with all reachable variables bound evaluation does not return exactly in that case.", "quantifier": "all acyclic scopes, all equations; all self-referential bindings", "why_tests_cant": "Non-termination cannot be observed by a finite test.", "anchors": ["core/src/term.rs: SimpleTerm::eval"]}
{"id": "C07", "title": "Weights are monotone in their components", "statement": "If one assignment gives every variable at least the number another gives, then the value of every equation under the first is at least the value under the second.", "quantifier": "all equations, all pairs of pointwise ordered assignments", "why_tests_cant": "Universal over trees and assignments.", "anchors": ["core/src/term.rs: SimpleTerm::eval"]}
{"id": "C08", "title": "Two-dimensional evaluation agrees with evaluating each dimension", "statement": "Whenever evaluating a two-dimensional (ref-time, proof-size) equation returns a weight, simplifying the equation to either dimension and evaluating it in the matching one-dimensional scope returns that dimension of the weight.", "quantifier": "all two-dimensional equations, all two-dimensional scopes of numbers, both dimensions", "why_tests_cant": "Universal over trees.", "anchors": ["core/src/term.rs: ChromaticTerm::eval, ChromaticTerm::simplify, ChromaticTerm::for_values", "core/src/traits.rs: Weight"]}
{"id": "C09", "title": "Simplifying to a dimension never fails", "statement": "ChromaticTerm::simplify returns Ok for every equation and dimension (the expect(\"Must simplify term\") in compare_files and the unreachable! inside simplify are never reached), keeps the shape and the variables, and keeps plain scalars.", "quantifier": "all two-dimensional equations, both dimensions", "why_tests_cant": "Universal over trees.", "anchors": ["core/src/term.rs: ChromaticTerm::simplify, for_values", "core/src/lib.rs: compare_files"]}
{"id": "C10", "title": "splice_add is addition", "statement": "In either dimension and any scope, the value of a.splice_add(b) equals the value of a plus the value of b.", "quantifier": "all pairs of two-dimensional equations, all assignments, both dimensions", "why_tests_cant": "Universal over pairs of trees.", "anchors": ["core/src/term.rs: ChromaticTerm::splice_add"]}
{"id": "C11", "title": "A ref-time quantity does not leak into proof size (and vice versa)", "statement": "Turning a one-dimensional equation into a two-dimensional one for dimension d preserves its value in d, and contributes zero in the other dimension for all variable values exactly when every product in it contains a number; a bare variable contributes its value to BOTH dimensions.", "quantifier": "all one-dimensional equations, all assignments", "why_tests_cant": "The exact boundary of the leak is a statement about every tree.", "anchors": ["core/src/term.rs: SimpleTerm::into_chromatic, scalar_into_term", "core/src/parse/pallet.rs: parse_parts_args"]}
{"id": "C12", "title": "The printed equation denotes the equation", "statement": "Reading the printed form of an equation with the usual precedence of + and * and parentheses gives back an equation with the same value for all variable values, for every equation in which no product or sum with a vanishing printed operand occurs; for other equations the printed form can denote a different value. This holds for the characters that are printed: the text spells the tokens, with variables that are words it can be cut into tokens in one way only, and so two such equations that are printed alike have the same value everywhere if their numbers are below 1000. With larger numbers they can differ, because numbers are abbreviated, but by no more than two percent for each of the numbers multiplied with each other.", "quantifier": "all equations, all assignments", "why_tests_cant": "Universal over trees; the failing shapes are rare.", "anchors": ["core/src/term.rs: Term::maybe_fmt_with_bracket, fmt_with_bracket, Display for Term"]}
{"id": "C13", "title": "Printed quantities carry the right unit and two-digit accuracy", "statement": "fmt_scalar, fmt_time and fmt_proof choose the largest unit not exceeding the number, print small numbers exactly, and otherwise print a decimal that differs from the true quotient by at most 0.005 plus the binary64 rounding error.", "quantifier": "all u128 values, all three formatters", "why_tests_cant": "2^128 values.", "anchors": ["core/src/lib.rs: Dimension::fmt_scalar, fmt_time, fmt_proof, fmt_value"]}
{"id": "C14", "title": "fmt_equation lists every variable once", "statement": "fmt_equation prints, in sorted order, name=value for every bound variable of the equation followed by every free variable, each exactly once, and never panics.", "quantifier": "all equations and scopes", "why_tests_cant": "Universal over trees.", "anchors": ["core/src/term.rs: Term::fmt_equation"]}
{"id": "C15", "title": "The sanity check flags exactly the literal factors above 1000", "statement": "sanity_check_term returns Err if and only if some product inside the equation multiplies the variable READ or WRITE directly with a scalar literal above 1000; the message reports the largest such literal and its kind.", "quantifier": "all equations", "why_tests_cant": "Universal over trees and literals.", "anchors": ["core/src/lib.rs: sanity_check_term", "core/src/term.rs: Term::find_largest_factor, Term::visit"]}
{"id": "C16", "title": "The sign of the reported percentage is right", "statement": "For weights below 2^53 the percentage is positive, zero or negative exactly if the new weight is larger, equal or smaller (old weight non-zero); for all u128 weights it is never of the opposite sign.", "quantifier": "all pairs of u128 weights", "why_tests_cant": "Floating point rounding near equality; astronomically many pairs.", "anchors": ["core/src/lib.rs: percent"]}
{"id": "C17", "title": "The percentage is monotone", "statement": "Raising the new weight never lowers the percentage and raising the old weight never raises it, for all u128 weights (old non-zero); for weights below 2^53 a larger exact ratio new/old never gets a smaller percentage.", "quantifier": "all u128 weights", "why_tests_cant": "Needs monotonicity of every rounding step.", "anchors": ["core/src/lib.rs: percent"]}
{"id": "C18", "title": "Special values of the percentage", "statement": "percent(x,x)=0 and percent(x,0)=-100 for every x>0, percent(0,n)=+inf for n>0, percent(0,0)=NaN; the percentage of any pair with non-zero old is finite and at least -100.", "quantifier": "all u128 weights", "why_tests_cant": "Universal over values.", "anchors": ["core/src/lib.rs: percent"]}
{"id": "C19", "title": "The percentage is accurate", "statement": "For every pair of u128 weights with non-zero old weight, the reported percentage differs from 100*new/old-100 by at most a fixed tiny multiple of (100*new/old + 100).", "quantifier": "all u128 weights", "why_tests_cant": "Error bound over all inputs.", "anchors": ["core/src/lib.rs: percent"]}
{"id": "C20", "title": "Every evaluated point is a corner and every corner is evaluated", "statement": "The scopes evaluated for a pair of extrinsics are exactly those that extend the base scope by giving each free component either its low or its high instance, each corner once, in a sorted order.", "quantifier": "all pairs of extrinsics with at most 16 components, all methods, all hash orders", "why_tests_cant": "2^n corners, all terms.", "anchors": ["core/src/lib.rs: extend_scoped_components"]}
{"id": "C21", "title": "Results do not depend on hash iteration order", "statement": "For any two iteration orders of the internal hash set, the list of evaluated scopes and the comparison result are equal; if one order fails, so does the other.", "quantifier": "all pairs of hash iteration orders, all extrinsics, all methods", "why_tests_cant": "Hash seeds are random per run.", "anchors": ["core/src/lib.rs: extend_scoped_components, compare_extrinsics"]}
{"id": "C22", "title": "Exact methods never guess", "statement": "With exact-worst or exact-asymptotic, a comparison that succeeds used for every free component a range annotated in the old or new version, equal in both if both have one; if a component has no range, or two different ranges, the comparison is an error. Guessing methods never fail for lack of ranges.", "quantifier": "all extrinsics, ranges and methods", "why_tests_cant": "Universal over range tables.", "anchors": ["core/src/lib.rs: instance_component, CompareMethod::min, CompareMethod::max"]}
{"id": "C23", "title": "Component instances stay in the annotated hull", "statement": "Every value assigned to a component lies between the smallest annotated minimum and the largest annotated maximum; un-annotated components are 0 or 100; minimum instances use the smaller minimum and maximum instances the larger maximum of the two versions.", "quantifier": "all range tables, components, strategies", "why_tests_cant": "Universal over ranges.", "anchors": ["core/src/lib.rs: instance_component"]}
{"id": "C24", "title": "Worst-case methods really find the worst case", "statement": "For equations that are affine in every component (hyper-planes in the README's words), with weights below 2^53, the change reported by exact-worst/guess-worst ranks (to 0.001 percentage points) at least as high as the change at EVERY component assignment within the ranges, not only the corners; with a non-zero old weight at the minimum corner the exact relative change exceeds the reported percentage by at most 0.002 and rounding. False for equations that are not affine.", "quantifier": "all multi-affine equations, all boxes, all integer points inside", "why_tests_cant": "The number of interior points is unbounded; needs a quasi-linearity argument.", "anchors": ["core/src/lib.rs: compare_extrinsics, extend_scoped_components", "README.md: Evaluation Method"]}
{"id": "C25", "title": "The reported change is maximal among the corners", "statement": "The change reported for two versions of a call is one of the changes at an evaluated corner, no evaluated corner ranks higher, and of several equally ranked corners the last one in scope order is reported; for a call present in one version only the point reported is the corner with all components low, which need not be the worst.", "quantifier": "all extrinsic pairs, all methods", "why_tests_cant": "Universal.", "anchors": ["core/src/lib.rs: compare_extrinsics, TermChange::cmp"]}
{"id": "C26", "title": "Comparison of extrinsics cannot panic in a wrapping build", "statement": "With at least one version present, compare_extrinsics returns a change or an error for all inputs: no free-variable unreachable!/assert!, no empty-result unwrap and no Inconclusive unreachable! is reached; it is an error only for more than 16 components or for missing/different ranges under an exact method.", "quantifier": "all extrinsics, methods, dimensions", "why_tests_cant": "Universal.", "anchors": ["core/src/lib.rs: compare_extrinsics, compare_terms, RelativeChange::new"]}
{"id": "C27", "title": "Added, Removed, Changed and Unchanged mean what they say", "statement": "The reported kind is Added exactly if only the new version exists, Removed exactly if only the old one exists, Unchanged exactly if both exist with the same equation up to underscores in variable names, and Changed otherwise.", "quantifier": "all extrinsics, methods, dimensions", "why_tests_cant": "Universal.", "anchors": ["core/src/lib.rs: compare_terms, RelativeChange::new", "core/src/term.rs: PartialEq for VarValue"]}
{"id": "C28", "title": "Unchanged implies equal values", "statement": "When the report says Unchanged the old and new value in the report are equal (true whenever variable names that are equal up to underscores are equal; false in general).", "quantifier": "all extrinsics, methods, dimensions", "why_tests_cant": "Only exotic names break it.", "anchors": ["core/src/lib.rs: compare_terms", "core/src/term.rs: PartialEq for VarValue"]}
{"id": "C29", "title": "Swapping old and new mirrors the comparison", "statement": "Swapping the two versions swaps the evaluated values at every corner and turns Added into Removed and vice versa, keeping Changed and Unchanged; the same corners are evaluated.", "quantifier": "all extrinsic pairs, methods, dimensions", "why_tests_cant": "Universal.", "anchors": ["core/src/lib.rs: compare_terms, extend_scoped_components, instance_component"]}
{"id": "C30", "title": "Storage accesses cost nothing in the proof dimension and fixed amounts in time", "statement": "In the time dimension READ and WRITE evaluate to 25_000_000 and 100_000_000 in every comparison; in the proof dimension the result is the same whatever multiples of READ and WRITE the equations add.", "quantifier": "all extrinsics and methods", "why_tests_cant": "Universal over equations.", "anchors": ["core/src/lib.rs: compare_extrinsics", "core/src/scope.rs: with_storage_weights"]}
{"id": "C31", "title": "Base and asymptotic methods evaluate a single point", "statement": "Base evaluates only the all-minimum point, asymptotic methods only the all-maximum point, so the reported old and new values are the equation values at that point.", "quantifier": "all extrinsic pairs", "why_tests_cant": "Universal.", "anchors": ["core/src/lib.rs: CompareMethod::min, CompareMethod::max, compare_extrinsics"]}
{"id": "C32", "title": "Every call is reported exactly once", "statement": "compare_files returns exactly one entry per (file, extrinsic) pair that occurs in the old or new input and passes the pallet and extrinsic filters, in ascending order, and no other entries.", "quantifier": "all input lists, all filters", "why_tests_cant": "Universal over lists.", "anchors": ["core/src/lib.rs: compare_files"]}
{"id": "C33", "title": "Each entry compares the right pair", "statement": "The entry for (file, extrinsic) is the comparison of the first old and the first new input extrinsic with that file and name (absent if none), and depends on nothing else in the input.", "quantifier": "all input lists", "why_tests_cant": "Universal over lists.", "anchors": ["core/src/lib.rs: compare_files"]}
{"id": "C34", "title": "The order of input files does not matter", "statement": "If no (file, extrinsic) pair occurs twice in a list, permuting the old and new lists leaves the result of compare_files unchanged.", "quantifier": "all permutations of all input lists", "why_tests_cant": "Factorially many orders.", "anchors": ["core/src/lib.rs: compare_files"]}
{"id": "C35", "title": "Comparing a version with itself reports no change", "statement": "Comparing any set of extrinsics with itself yields only Unchanged entries or errors, and after filtering with any threshold of at least 0.000001 only errors remain.", "quantifier": "all inputs, methods, dimensions", "why_tests_cant": "Universal.", "anchors": ["core/src/lib.rs: compare_files, filter_changes"]}
{"id": "C36", "title": "The filter keeps exactly the relevant changes", "statement": "filter_changes keeps errors always; otherwise an entry is kept iff its kind is selected and it is Added, Removed, Changed with magnitude not below the threshold (NaN counts as not below), or Unchanged with threshold below 0.000001. Order and contents are kept; filtering twice is filtering once; a higher threshold keeps a subset.", "quantifier": "all reports, all filter parameters incl. NaN and infinities", "why_tests_cant": "Universal over reports and floats.", "anchors": ["core/src/lib.rs: filter_changes, FilterParams::included"]}
{"id": "C37", "title": "Sorting puts errors first and the worst change last", "statement": "sort_changes returns a permutation of the report in which all errors come first and the rest is ascending in (kind, percent to 0.001), ties keeping their input order, although the comparison function is not a valid order on errors; the errors are in the reverse of their input order. The result does not depend on how a stable merge sort divides the list, and sorting a part of a report gives that part of the sorted report.", "quantifier": "all reports, all merge strategies of the std stable sort", "why_tests_cant": "An invalid comparator only misbehaves on particular inputs.", "anchors": ["core/src/lib.rs: sort_changes, TermDiff::cmp, TermChange::cmp"]}
{"id": "C38", "title": "Listing files is a bounded sorted set", "statement": "list_files returns the matches of all comma-separated patterns without mod.rs files, sorted and without duplicates; it fails if the running number of matches exceeds the limit, and never returns more files than the limit.", "quantifier": "all glob results, all patterns, all limits", "why_tests_cant": "Universal.", "anchors": ["core/src/lib.rs: list_files"]}
{"id": "C39", "title": "Path patterns with two dots are refused before anything is run", "statement": "compare_commits rejects every pattern containing '..' before running any git command or glob; every pattern handed to glob is the repository path, a slash and a comma-free piece that contains no '..'.", "quantifier": "all pattern strings", "why_tests_cant": "Adversarial strings.", "anchors": ["core/src/lib.rs: compare_commits, list_files"]}
{"id": "C40", "title": "Offline never touches the network", "statement": "With offline set, or without git_pull, no git fetch is executed by compare_commits, whatever git answers; on the server a request with git_pull=false executes git reset only.", "quantifier": "all parameters, all behaviours of git", "why_tests_cant": "Universal over environment behaviour.", "anchors": ["core/src/lib.rs: CompareParams::should_pull, git_checkout, git_pull, git_reset"]}
{"id": "C41", "title": "Old weights come from the old commit and new weights from the new one", "statement": "If compare_commits succeeds, the old extrinsics were read from the working tree left by a git checkout/reset command for the old revision that reported success, and the new ones from the tree left by one for the new revision, with no other git command in between.", "quantifier": "all behaviours of git, file system and parser", "why_tests_cant": "Universal over environment behaviour.", "anchors": ["core/src/lib.rs: compare_commits, git_checkout, git_reset"]}
{"id": "C42", "title": "A failed checkout is reported and stops the comparison", "statement": "If fetching or checking out a revision fails, compare_commits returns an error and parses nothing from that tree; in force mode the remote branch origin/REV is tried first and the plain REV only if that failed.", "quantifier": "all behaviours of git", "why_tests_cant": "Universal over environment behaviour.", "anchors": ["core/src/lib.rs: git_checkout, git_pull, git_reset, compare_commits"]}
{"id": "C43", "title": "Parsed weights mean what the Rust code means", "statement": "Whenever a weight function body built from Weight::from_parts/from_ref_time/from_proof_size/zero, saturating_add, saturating_mul, into, casts, DbWeight reads/writes, literals and components is accepted, the parsed equation evaluates in each dimension to the value the Substrate runtime computes for it in unbounded arithmetic (the runtime value being that value saturated at u64::MAX), provided ref-time and proof-size arguments are products containing a number.", "quantifier": "all expressions, all component values and storage costs, both dimensions", "why_tests_cant": "Infinitely many expressions.", "anchors": ["core/src/parse/pallet.rs: parse_expression, parse_scalar_expression, parse_call, parse_method_call, parse_rw"]}
{"id": "C44", "title": "All benchmark-template weight functions are accepted", "statement": "Every expression of the Substrate benchmarking template grammar (from_parts base, saturating_add of component products and of reads/writes with literal or component counts) parses successfully.", "quantifier": "all expressions of the template grammar, any number of summands", "why_tests_cant": "Infinitely many expressions.", "anchors": ["core/src/parse/pallet.rs: parse_expression"]}
{"id": "C45", "title": "An implementation is parsed completely or not at all", "statement": "If parsing a file succeeds, the returned extrinsics are, in order, exactly the functions of the first impl block in the file that is eligible and completely parseable; none is dropped or invented and all carry the file name.", "quantifier": "all files (item lists)", "why_tests_cant": "Universal over files.", "anchors": ["core/src/parse/pallet.rs: parse_content, handle_item, handle_method"]}
{"id": "C46", "title": "Only weight implementations are considered", "statement": "Functions are only taken from impl blocks for (), WeightInfo or SubstrateWeight (single path segment, no leading ::), and only if they return a type ending in Weight and consist of one statement.", "quantifier": "all items", "why_tests_cant": "Universal.", "anchors": ["core/src/parse/pallet.rs: handle_item, handle_method"]}
{"id": "C47", "title": "Range annotations are read correctly", "statement": "A doc line 'The range of component `c` is `[lo, hi]`.' yields the range lo..hi for c for all names and all u32 bounds with any underscores; bounds out of u32 or lo>hi are errors; other attributes are ignored; a later annotation of the same name replaces an earlier one.", "quantifier": "all attribute lists, names, bounds", "why_tests_cant": "Universal over strings.", "anchors": ["core/src/parse/pallet.rs: parse_component_attr, parse_component_attrs"]}
{"id": "C48", "title": "An annotated component is evaluated with its annotated range", "statement": "The range annotated for a component is the one used when the component is instantiated (true for names without underscore; names with an underscore are stored without it and looked up with it, so their annotation is ignored).", "quantifier": "all component names and ranges", "why_tests_cant": "Only exotic names break it.", "anchors": ["core/src/parse/pallet.rs: parse_component_attrs", "core/src/lib.rs: instance_component"]}
{"id": "C49", "title": "ignore_errors only drops unparseable files", "statement": "Parsing with ignore_errors returns the concatenation of the results of the parseable files in order; without it the result is the same if all files parse and otherwise the error of the first failing file. A panic while parsing is not an error and is not ignored.", "quantifier": "all file lists", "why_tests_cant": "Universal.", "anchors": ["core/src/parse/pallet.rs: parse_files, try_parse_files, parse_files_in_repo, try_parse_files_in_repo"]}
{"id": "C50", "title": "Database weight files are read faithfully", "statement": "A storage weight file yields the database kind and the read and write expressions of the first well-formed parameter_types! constant, at top level or inside mod constants, whatever order its fields have; evaluated in the Substrate scope they give the value of the Rust expression.", "quantifier": "all files (item trees), all expressions", "why_tests_cant": "Universal over trees.", "anchors": ["core/src/parse/storage.rs: parse_content, handle_item, parse_macro, parse_runtime_db_weight, parse_expression"]}
{"id": "C51", "title": "Overhead weight files are read faithfully", "statement": "An overhead weight file yields the block or extrinsic base weight of the first well-formed parameter_types! constant named BlockExecutionWeight or ExtrinsicBaseWeight of type Weight; product and sum expressions evaluate in the time dimension to the value of the Rust expression.", "quantifier": "all files (item trees), all expressions", "why_tests_cant": "Universal over trees.", "anchors": ["core/src/parse/overhead.rs", "core/src/term.rs: TryInto<SimpleTerm> for &ExprBinary"]}
{"id": "C52", "title": "File type detection has a fixed priority", "statement": "try_parse_file returns the pallet reading if the file parses as a pallet, else the storage reading if it parses as storage, else the overhead reading, else nothing; it never returns an error.", "quantifier": "all files", "why_tests_cant": "Universal.", "anchors": ["core/src/parse/mod.rs: try_parse_file"]}
{"id": "C53", "title": "Pallet names are stable under relocation of the repository", "statement": "With repo-relative naming, a file below the repository is named by its path relative to it, whatever the location of the repository, and different files get different names; with file-name naming only the last component counts, so equally named files collide.", "quantifier": "all repository locations and relative paths", "why_tests_cant": "Universal over paths.", "anchors": ["core/src/parse/mod.rs: PathStripping::strip"]}
{"id": "C54", "title": "Cached comparisons are fresh enough and belong to the request", "statement": "Every response marked as cached carries the value of a successful comparison computed for identical arguments less than 600 seconds earlier; every other response was computed for this request; errors are never served from the cache.", "quantifier": "all request histories with non-decreasing clocks", "why_tests_cant": "Unbounded histories.", "anchors": ["web/src/main.rs: do_compare_cached, compare"]}
{"id": "C55", "title": "Comparisons of one repository do not interfere", "statement": "Under every interleaving of any number of compare and branch-listing requests, the working tree of a repository is not changed by anyone else between the start and the end of a comparison, so every comparison result equals that of running it alone from the repository state at its start.", "quantifier": "all interleavings of any number of requests", "why_tests_cant": "Schedules cannot be enumerated.", "anchors": ["web/src/main.rs: do_compare_cached, branches, REPOS"]}
{"id": "C56", "title": "The web server's locks cannot deadlock", "statement": "In every reachable state in which some request is unfinished, some request can make a step.", "quantifier": "all interleavings of any number of requests", "why_tests_cant": "Schedules cannot be enumerated.", "anchors": ["web/src/main.rs: do_compare_cached, branches, compare"]}
{"id": "C57", "title": "Added sorts above and Removed below every change in the web table", "statement": "The sort key of the relative column of an Added row is larger and of a Removed row smaller than that of every Changed or Unchanged row whose percentage was computed from u128 weights (NaN and infinite percentages included); among Changed rows it is monotone in the percentage, and it tells percentages apart that differ by at least 0.003 and lie below 4294967; above that limit all keys are equal.", "quantifier": "all report rows", "why_tests_cant": "Universal over floats.", "anchors": ["web/src/html.rs: order_percent"]}
{"id": "C58", "title": "The absolute-change column is exact", "statement": "For weights below 2^127 the absolute change key and text are the exact difference new-old with its sign, without overflow.", "quantifier": "all pairs of weights below 2^127", "why_tests_cant": "Universal over values.", "anchors": ["web/src/html.rs: order_abs, html_color_abs"]}
{"id": "C59", "title": "Colours follow the sign", "statement": "In CLI and web output a decrease is green, an increase red, and a change that is neither is neutral; Added is red and Removed green in the CLI, both are orange in the web page; the colour is reset at the end of each cell, and with no_color the CLI prints no escape character of its own.", "quantifier": "all changes incl. NaN", "why_tests_cant": "Universal over floats.", "anchors": ["cli/src/main.rs: color_percent, maybe_color", "web/src/html.rs: html_color_percent"]}
{"id": "C60", "title": "CSV rows match the header", "statement": "Without print_terms every CSV row has the five columns of the header with file, call, both weights and the change (for file and call names without commas and line ends) and there is one row per non-error entry in order; with print_terms rows have one column fewer than the header.", "quantifier": "all reports", "why_tests_cant": "Universal.", "anchors": ["cli/src/main.rs: print_changes_csv"]}
{"id": "C61", "title": "Errors are always shown by the table output", "statement": "The human and markdown tables contain one ERROR row per failed entry, before all other rows, and one row per other entry that passes the filter, in descending order of kind and percentage; CSV output shows no errors.", "quantifier": "all reports", "why_tests_cant": "Universal.", "anchors": ["cli/src/main.rs: print_changes_human, print_changes_csv"]}
{"id": "C62", "title": "Branch listing never panics on well-formed git output", "statement": "For every ls-remote output listing references with hashes of at least 12 digits and names without refs/heads/ or refs/tags/ inside, branches returns one (name, 12-digit hash) pair per listed reference without '{' or '^', in order; it does not panic if no listed name ends in a slash, and it panics exactly if a kept line has fewer than two fields or no character boundary after 12 bytes of the first one. The handler answers a listing exactly if git did all that was asked and the output is understood, an error exactly if git refuses, with its reason, and it panics exactly if that reason is not UTF-8 or the output is not understood. What any output whatever lists, reference by reference and in order, and which outputs make the listing crash, is stated by itself, with trimming, line splitting and removal of prefixes defined from their meaning.", "quantifier": "all git outputs", "why_tests_cant": "Universal over strings.", "anchors": ["web/src/main.rs: branches"]}
{"id": "C63", "title": "Organisation lookup accepts exactly GitHub https URLs", "statement": "get_origin_org returns the first path segment of an origin URL of the form https://github.com/ORG/... and fails for every URL that is not of the form https://github?com/ORG/... (? any character but a line feed, since the dot of the regex is not escaped).", "quantifier": "all URL strings", "why_tests_cant": "Universal over strings.", "anchors": ["web/src/git.rs: get_origin_org"]}
{"id": "C64", "title": "Option names round-trip", "statement": "Parsing the textual name of every method, dimension, change kind, output format and path stripping gives that value back, distinct values have distinct names, every other string is rejected (the command line also rejects the alias `weight` of the unit), and the name/value pairs shown in the web form are consistent.", "quantifier": "all strings", "why_tests_cant": "Universal over strings.", "anchors": ["core/src/lib.rs: FromStr, variants, all, reflect", "core/src/parse/mod.rs: FromStr for PathStripping", "cli/src/main.rs: FromStr for OutputFormat"]}
{"id": "C65", "title": "The version check accepts exactly the running version", "statement": "/version?is=V answers 200 iff V is the running version, or that version with every '+' replaced by a space; otherwise 500.", "quantifier": "all version strings", "why_tests_cant": "Universal over strings.", "anchors": ["web/src/main.rs: version"]}
{"id": "C66", "title": "The server starts only with usable repositories", "statement": "The server starts iff at least one repository is named, each has a GitHub https origin and an existing directory, and the static directory exists; it then serves exactly the named repositories, each with its own path and organisation.", "quantifier": "all lists of repository names and environments", "why_tests_cant": "Universal over lists and environments.", "anchors": ["web/src/main.rs: main", "web/src/git.rs: get_origin_org"]}
{"id": "C67", "title": "Printed percentages are accurate", "statement": "The percentage printed by the CLI and shown by the web page has two digits after the point and lies within half a hundredth (plus the rounding error of binary64) of the exact relative change, with the right sign.", "quantifier": "all weights below 2^53 with a positive old weight", "why_tests_cant": "Universal over numbers.", "anchors": ["cli/src/main.rs: color_percent", "web/src/html.rs: html_color_percent", "core/src/lib.rs: percent"]}
{"id": "C68", "title": "The report is the worst case over what the runtime charges", "statement": "If a comparison of two revisions with a worst-case method reports a call present in both, then the two checked out revisions contain a function of that file and name; and if both are generated two-dimensional weight functions that cost less than 2^53 at the highest parameters, no runtime with parameters in the annotated ranges (RocksDB costs) is charged weights whose change ranks higher, and one such runtime is charged exactly the two reported weights.", "quantifier": "all repositories, revisions, generated weight functions, annotations, parameters", "why_tests_cant": "Universal over programs, runtimes and repositories.", "anchors": ["core/src/lib.rs: compare_commits, compare_files, compare_extrinsics", "core/src/parse/pallet.rs: parse_files_in_repo", "core/src/scope.rs"]}
{"id": "C69", "title": "A query means what its pairs say", "statement": "Every percent/plus spelling of a list of name/value pairs is decoded to that list, the form serializer writes such a spelling, and the server accepts a list of pairs exactly if old, new, repo, path_pattern, ignore_errors, threshold, unit and method occur once with readable values and extrinsic, pallet and git_pull at most once; the arguments are then these values, whatever other pairs there are and in whatever order.", "quantifier": "all lists of pairs, all spellings of them", "why_tests_cant": "Universal over names, values, orders and encodings.", "anchors": ["web/src/main.rs: CompareArgs, compare"]}
{"id": "C70", "title": "The controls of the comparison page edit one option", "statement": "Changing a control of the comparison page of a request yields a request that differs from it in exactly that option (an empty value opens nothing), and every method and unit offered by the lists of the page is understood by the server as the one it names.", "quantifier": "all requests, controls and values", "why_tests_cant": "Universal over requests and values.", "anchors": ["web/static/table.js: url_redirect", "web/templates/compare.stpl"]}
{"id": "C71", "title": "The start page and the merge request list ask for the selected revisions", "statement": "For repositories with a preset path pattern and revisions without %, &, # and control characters the query written by the start page and by the list of merge requests is understood, with the default options and the selected revisions in which + is replaced by a space; so revisions without + are compared as selected. False for revisions with +, # and for repositories without preset.", "quantifier": "all repositories, revisions, pairs of branches", "why_tests_cant": "Universal over revision names.", "anchors": ["web/static/root.js", "web/static/merge_requests.js", "web/templates/root.stpl", "web/src/main.rs"]}
{"id": "C72", "title": "The comparison page shows the request", "statement": "For every request, report, version and list of repositories with non-empty names without blanks, reading the page of a comparison by the rules of HTML gives controls that show the request: the text inputs hold the revisions, path pattern, pallet and extrinsic (.* if absent) character by character, whatever characters they contain, the number is the threshold, the lists offer exactly the served repositories and select repository, unit and method of the request, and the check boxes are checked accordingly. False for repository names with blanks, because the value of the option has no quotes.", "quantifier": "all requests, reports, repository lists", "why_tests_cant": "Universal over strings including every character with a meaning in HTML.", "anchors": ["web/templates/compare.stpl", "web/src/html.rs: Compare", "web/src/main.rs: compare"]}
{"id": "C73", "title": "The table of the comparison page shows the report", "statement": "If organisation, repository, revisions, file and call names, messages and variable names contain no '<', '&' or '\"', the table of the page has exactly one row of nine cells per entry that is not an error, in the order of the report, with file, name, weights, relative and absolute change, sort keys, links to the source at both revisions, equations and variables of that entry, and the name marked exactly for warnings; the two lists show exactly the errors and the warnings, in order, with their numbers; and in release builds a page is produced for every report computed from u128 weights. False without the condition: a revision can add elements to the page.", "quantifier": "all requests, reports, repository lists", "why_tests_cant": "Universal over reports of any length and over strings.", "anchors": ["web/templates/compare.stpl", "web/src/html.rs", "web/src/main.rs: compare"]}
{"id": "C74", "title": "The error page shows the message and nothing else", "statement": "For every message the error page, read by the rules of HTML, has the message as its heading and the same tags as with an empty message; a request gets this page with status 500 exactly if its query cannot be read, its repository has no known organisation or the comparison fails, with that message, and otherwise status 200 and the page of the comparison.", "quantifier": "all messages, requests and outcomes", "why_tests_cant": "Universal over messages including every character with a meaning in HTML.", "anchors": ["web/templates/error.stpl", "web/src/html.rs: Error, into_response", "web/src/main.rs: compare"]}
{"id": "C75", "title": "The start page and the merge request page offer the served repositories", "statement": "For every list of repositories the start page shows their number and offers each of them, in order, with its name in lower case as value; the page of the merge requests offers each of them (names without blanks) as organisation:name, and splitting the value at ':' gives organisation and name if neither contains ':'. False for names with blanks on the second page.", "quantifier": "all lists of repositories", "why_tests_cant": "Universal over lists and names.", "anchors": ["web/templates/root.stpl", "web/templates/merge_requests.stpl", "web/src/html.rs: Root, MRs", "web/static/merge_requests.js"]}
{"id": "C76", "title": "The commands of the tool compare what they are given", "statement": "compare files succeeds exactly if the old and the new files can be read and parsed (those that cannot are skipped exactly with --ignore-errors) and their calls can be compared, and shows that comparison in the given unit and format; without --ignore-errors the first unreadable file, old ones first, ends the command with its message. compare commits shows the comparison of C41 with no limit on the number of files below 2^64. parse files succeeds exactly if all files can be read; the number it then prints as files is the number of calls.", "quantifier": "all files, parameters, formats, behaviours of git", "why_tests_cant": "Universal.", "anchors": ["cli/src/main.rs: main", "core/src/parse/pallet.rs: parse_files, try_parse_files"]}
{"id": "C77", "title": "The server runs only these git commands", "statement": "In every reachable state of the server, for every set of requests and every interleaving, a git command about to be run by a comparison is git fetch origin REV (only unless git_pull=false), git reset --hard origin/REV or git reset --hard REV for REV one of the two trimmed revisions of that request, passed as one argument; one run by a branch listing is the fixed fetch or ls-remote command. Not excluded: a revision beginning with a dash is read by git as an option.", "quantifier": "all requests, interleavings, behaviours of git", "why_tests_cant": "Universal over schedules and environment behaviour.", "anchors": ["web/src/main.rs: do_compare_cached, branches", "core/src/lib.rs: git_reset, git_pull"]}
{"id": "C78", "title": "The report does not depend on where the repository is", "statement": "If the same repository lies at two different paths (same git behaviour, same files relative to it), comparing two revisions gives the same report at both, with the same file names, and one succeeds exactly if the other does.", "quantifier": "all repositories, paths, revisions, parameters, patterns", "why_tests_cant": "Universal over locations.", "anchors": ["core/src/lib.rs: compare_commits, list_files", "core/src/parse/pallet.rs: parse_file_in_repo", "core/src/parse/mod.rs: PathStripping::strip"]}
{"id": "C79", "title": "Generated weight files are read exactly, from their text", "statement": "For every text that is, token by token, a weight file as the Substrate benchmarking tool writes it (three templates: Weight::from_parts, Weight::from_ref_time, plain numbers; any documentation, imports, white space, line comments, underscores and suffixes of numbers, other items after the weights), the tool reads exactly the functions the file is about: one call per function, in order, with its name, the documented ranges of its components and an equation whose value for all parameters and storage costs, in time and in proof size, is the sum of the numbers in the text. Layout never matters: two texts with the same tokens are read alike.", "quantifier": "all texts of generated weight files, any number of functions, summands and numbers up to 2^64 - 1", "why_tests_cant": "Universal over texts of any length and over all parameters.", "anchors": ["core/src/parse/pallet.rs: parse_content, handle_item, parse_impl_fn, parse_call, parse_method_call, parse_component_attr", "core/src/parse/mod.rs: read_file"]}
{"id": "C80", "title": "The report is the worst case of the numbers in the files, from text to report", "statement": "If two revisions are compared with one of the worst-case methods and the report contains a call that both revisions have, and the files of that name are generated weight files (their texts, token by token) in both, then there are functions of that name in the two texts such that the reported change is a change that no parameters in the documented ranges exceed and the reported values are what the two functions cost for some such parameters with RocksDB storage costs, as long as the cost for the highest parameters is below 2^53.", "quantifier": "all texts of generated weight files, repositories, revisions, patterns, behaviours of git", "why_tests_cant": "Universal over texts, parameters and environment behaviour; covers every layer from file contents to report.", "anchors": ["core/src/lib.rs: compare_commits, compare_files, compare_extrinsics, extend_scoped_components", "core/src/parse/pallet.rs", "core/src/term.rs", "core/src/scope.rs"]}
{"id": "C81", "title": "Storage and overhead files are read exactly, from their text", "statement": "For every text that is, token by token, a file with database costs (RocksDbWeight or ParityDbWeight, read and write in any order, plain or times the weight of a nanosecond, with doc comments, in a module constants or not, any layout), the tool reads exactly that database and, evaluated in the Substrate scope, those costs. For every text that is a file with the block or extrinsic overhead (three templates), it reads exactly which overhead it is, its time and its proof size. Both are recognised as what they are by try_parse_file.", "quantifier": "all texts of such files, numbers up to the range of the integer type", "why_tests_cant": "Universal over texts of any length.", "anchors": ["core/src/parse/storage.rs", "core/src/parse/overhead.rs", "core/src/parse/mod.rs: try_parse_file", "core/src/scope.rs: from_substrate"]}
{"id": "C82", "title": "From the bytes of a request to the rows of the page", "statement": "If the bytes of a query, with the HTML entities in its revisions and its pattern decoded, spell the arguments of a worst-case comparison and the server, in any reachable state, answers it with a page, then a comparison with exactly these arguments ended less than ten minutes before (for answers from the cache) or just now, both trimmed revisions were checked out for it in the repository the query names, and every row of the page, read as HTML, shows the numbers of an entry with this property: if both revisions have the call and the files of that name are generated weight files in both checkouts, the numbers are the worst case (C80) of what the texts of these files say. (Names and messages are assumed to contain none of the characters that the page inserts without escaping, see C71 and C73.)", "quantifier": "all queries, interleavings of requests, cache states, behaviours of git, texts of files", "why_tests_cant": "Universal over schedules, environment and texts; covers every layer of the program at once.", "anchors": ["web/src/main.rs: compare, do_compare_cached", "web/src/html.rs", "web/templates/compare.stpl", "core/src/lib.rs", "core/src/parse/pallet.rs"]}
{"id": "C83", "title": "The start page compares what it shows", "statement": "For every sequence of selections by the user and answers of the server: a selected revision is among those on offer and is the one the summary names, the selected repository is the one the user chose last; if a repository with a preset and two revisions are selected, the server understands the query of the button as the comparison of these revisions of this repository. If the user waits for the lists and no request fails, the page offers exactly what the server listed last for the selected repository. An answer selects master twice, or nothing if it is not in the list. Selecting a repository asks the server, without fetching, exactly if no list was received for it in this visit, and otherwise offers the known list at once; the button to fetch always asks the server to fetch the selected repository; selecting a revision asks nothing. False of the code, and shown with witnesses: that earlier selections are remembered (local storage has no effect on any visit), that a late answer for another repository is ignored, that a failed request clears the list, that the button does not ask for revisions called null.", "quantifier": "all visits: sequences of user and server events of any length, contents of the local storage", "why_tests_cant": "Universal over event sequences; the script has no tests.", "anchors": ["web/static/root.js", "web/templates/root.stpl"]}
{"id": "C84", "title": "The lists of the start page are what git printed", "statement": "A query for branches, however spelled, is accepted exactly if it names one repository and fetch at most once, as true or false; the request of the start page is understood as the selected repository and whether to fetch. Whatever requests the server handles at the same time, a list it answers is what git ls-remote printed, while the server ran, in the repository asked for. The text of the answer, read as JSON, is exactly that list, whatever characters the names contain. Composed: if git prints well-formed listings, the user waits for the lists and no request fails, then, whenever no request is open, the page offers the names of the references that git printed in the selected repository, all but those with { or ^, in order.", "quantifier": "all queries, interleavings of requests, behaviours of git, listings, visits of the page", "why_tests_cant": "Universal over schedules, listings and visits; crosses Rust, JSON and JavaScript.", "anchors": ["web/src/main.rs: BranchArgs, branches", "web/static/root.js: load_branches, populate_branches"]}
{"id": "C85", "title": "The list of merge requests shows and opens the right comparisons", "statement": "If no fork has been deleted, the table gets one row for every merge request GitHub lists, added newest first (C117 says in what order they are shown) and in GitHub's order where the dates are equal, with title (cut after 100 units), author and branches; the rows of forks are gray and a double click on them does nothing; the rows of the repository itself are green exactly if title or a branch mentions weights in any case, and the number on the page is the number of green rows; a double click on them makes the server fetch the branches of that repository and then opens the comparison of base with head. Selecting a repository opens the list of its merge requests, whatever else is in the address. False of the code, and shown: if the fork of a merge request was deleted, the list ends there, the number is 0 and the page keeps waiting; without a preset every double click throws; spaces are not read as they are written; titles and names of branches are taken for HTML, so that they are shown as they are only without markup, and a title can bring elements with scripts into the page.", "quantifier": "all answers of GitHub, repositories, addresses of the page", "why_tests_cant": "Universal over lists and texts; the script has no tests.", "anchors": ["web/static/merge_requests.js", "web/static/common.js: default_params", "web/templates/merge_requests.stpl"]}
{"id": "C86", "title": "Command lines mean what they say", "statement": "The command line tool understands a line as a command with certain options exactly if the line writes down these options: every option in one of its spellings (--name value, --name=value, -n value, -n=value, -nvalue, lists of words up to the next option, words without name, everything after --), each at most once (lists may be continued), values written in the right form (names in any case, decimal numbers correctly rounded, paths by components), defaults for what is not given. The order of options and their spelling do not matter. The same for the options of the server, where certificate and key are given together or not at all. Composed with the commands: compare commits and compare files show a comparison exactly if the line is written properly and the revisions or files that it names can be read and compared with these options. Against the text: in a debug build parse files cannot be used at all (clap refuses its definition), and the formats json and brief-human are accepted but always end with an error.", "quantifier": "all lists of arguments, worlds, behaviours of git", "why_tests_cant": "Universal over argument lists of any length; the tests run six fixed lines.", "anchors": ["cli/src/main.rs: MainCmd, SubCommand, CompareFilesCmd, CompareCommitsCmd, ParseFilesCmd, FormatParams, main", "core/src/lib.rs: CompareParams, FilterParams", "web/src/main.rs: MainCmd"]}
{"id": "C87", "title": "The complete report on generated weight files, from their text to the page", "statement": "If two revisions can be checked out, their files listed, and all of these are generated weight files (or, with ignore_errors, files without impl block), then for every method and unit there is a report: sorted, exactly one entry for every function in the files that passes the filters, about the first function of that name in each revision. The entry is an error with the true reason exactly if the functions have more than 16 components or, for the exact methods, a component with no range or two ranges; else it shows what the functions cost: for the largest documented parameters (asymptotic), for the smallest (base), or for parameters where the change is the largest (worst), with the right kind of change, and a warning with the largest number exactly if the newest version has more than 1000 reads or writes as a constant. The page of the server, answered from the cache or not, shows exactly the entries of this report that pass the filter by change, errors first, every row with these numbers; if nothing else is going on the server does answer with such a page; and what the button of the start page opens is this page for the revisions that the start page shows. Costs are assumed to stay below 2^128 (below 2^53 for the worst-case methods).", "quantifier": "all texts of generated weight files, repositories, revisions, methods, units, filters, interleavings of requests, behaviours of git", "why_tests_cant": "Universal over texts, parameters, schedules and environment; covers every layer at once and excludes missing entries.", "anchors": ["core/src/lib.rs: compare_commits, compare_files, compare_extrinsics, extend_scoped_components, sanity_check_term, filter_changes, sort_changes", "core/src/parse/pallet.rs", "core/src/term.rs", "core/src/scope.rs", "web/src/main.rs: compare, do_compare_cached", "web/templates/compare.stpl", "web/static/root.js"]}
{"id": "C88", "title": "Errors and warnings say what is the case", "statement": "The text of an error in a report names the call and the true reason: its exact number of components, if there are more than 16; else, for the exact methods, one of its components, that has no range in any version or two different ones, whichever the text says. The text of a warning names the call and the largest constant factor of a storage access in its newest version, of writes if there are as many.", "quantifier": "all pairs of calls, methods, hash orders", "why_tests_cant": "Universal over equations and annotations.", "anchors": ["core/src/lib.rs: extend_scoped_components, instance_component, compare_files, sanity_check_term"]}
{"id": "C89", "title": "The server as a web site", "statement": "For every command line, machine and sequence of requests in any interleaving: the server starts exactly if its arguments are proper, it is given repositories, each of which exists and has a GitHub origin, and its directory of files is there; it then knows exactly the given repositories, as directories below the root. A request reaches a page exactly if it is a GET request for the address of that page, in any spelling with %XY (except for the slash); what is below /static is answered from files; everything else is answered with 404. No request is answered twice, answers stand, and once nothing is left to do (which can always be reached) every request has been answered or its handler has panicked. A successful answer to /compare was computed, less than ten minutes before, for what the query spells in the directory of the repository named, and shows the complete report (C87) if all files are generated weight files; all other answers show the true error. A successful answer to /branches is what git printed in that repository for this request and, if asked to fetch, after having fetched for it; an error says what git, run for this request, said. The pages with lists offer the repositories of the site; /version answers with the version. The button of the start page leads to the comparison it shows; the error page has the same links for all messages and the server understands them. False with default arguments: that it knows the repository of the last of these links.", "quantifier": "all command lines, machines, request histories, interleavings, spellings, behaviours of git", "why_tests_cant": "Universal over schedules and request histories; covers the way from the request line to the answer.", "anchors": ["web/src/main.rs", "web/templates/error.stpl"]}
{"id": "C90", "title": "The server stays alive, and what silences it", "statement": "All numbers read from a file are u128 numbers and all bounds u32 numbers; so all weights in a report, in both builds, are u128 numbers and its percentages are computed from them. Hence in release builds making a page never panics, whatever has been compared; and if the files of the repositories do no harm (generated weight files, or no weight function that consists of something else than an expression or has a literal that is not a u128 number), git complains in UTF-8 and lists references as documented, then in every reachable state no handler has ever panicked and the cache is not poisoned; every request that ever comes can be answered, once nothing is left to do every request has been answered, and every run in which no further requests come gets there, whatever order the server works in. Against the text: once a comparison has panicked, no request for a comparison in a known repository is ever answered again (in particular, a single number of 2^128 or more in a weight file is enough).", "quantifier": "all request histories, interleavings, repositories, texts of files, behaviours of git", "why_tests_cant": "Universal over schedules and texts; a liveness property after arbitrary histories.", "anchors": ["web/src/main.rs: compare, branches, do_compare_cached", "core/src/parse/pallet.rs", "core/src/term.rs", "core/src/scope.rs", "core/src/lib.rs: compare_files, compare_extrinsics"]}
{"id": "C91", "title": "From the click to the page", "statement": "If nothing else is going on, the cache is not poisoned, the comparison has not been made in the last ten minutes, both revisions can be checked out and all files found are generated weight files (or have no impl block, if errors are ignored), then in every run of the server after the request, in whatever order it works and however time passes, as long as no further requests come, the request for the comparison is answered with a page that shows the complete report (C87) on the files of exactly these two revisions. In particular for the button of the start page: whatever happened on the page before, the report is the one on the repository and the two revisions that the page shows when the button is pressed.", "quantifier": "all command lines, machines, histories of the server, visits of the start page, runs, texts of generated files, behaviours of git", "why_tests_cant": "Universal over schedules; a liveness property that crosses JavaScript, HTTP, git, files and HTML.", "anchors": ["web/static/root.js", "web/src/main.rs: compare, do_compare_cached, do_compare", "core/src/lib.rs: compare_commits", "web/templates/compare.stpl"]}
{"id": "C92", "title": "From the arguments to the rows: the command line tool prints the complete report", "statement": "If the arguments are written properly, the two revisions can be checked out (or the files named be read) and all files are generated weight files, then the command line tool, in both builds, prints the complete report (C87) on the functions in them: nothing, if no call passes the filter by change; else, in tables, one row for each call that cannot be compared and then one for each other call that passes the filters, largest change first, each exactly once, with the right numbers; in comma separated values the latter only. With --print-terms the cells spell equations in the parameters and storage costs that, read with the usual precedence, say what both versions cost for all parameters; so do the cells of the page of the server, which also lists parameters for which the versions cost what the row says. Whatever the arguments, files and git, the tool ends; in release builds it does not crash if files are harmless and have names and the pattern of --strip-path-prefix is valid. False without a condition: a function with reads(0) times a parameter is printed as if it had a read.", "quantifier": "all command lines, worlds, texts of generated files, methods, units, filters, formats without json and brief-human", "why_tests_cant": "Universal over texts, parameters and environment; crosses argument parsing, git, files, comparison and printing.", "anchors": ["cli/src/main.rs: main, print_changes, print_changes_csv, print_changes_human, color_percent, filter_path", "core/src/lib.rs: compare_commits, compare_files, filter_changes, sort_changes", "core/src/term.rs: maybe_fmt_with_bracket", "core/src/scope.rs: Display"]}
{"id": "C93", "title": "Many requests at once: everyone gets the right page", "statement": "Take any moment of the life of the server and two revisions that, from then on, can always be checked out, whatever the server does meanwhile, with generated weight files in both; the comparison is not known and not being made. Then, whatever other requests come (for comparisons in this repository: whatever they ask for, as long as the two revisions stay available under it) and in whatever order the server works, every answer to a request for comparing them that comes from that moment on is a page that shows the complete report (C87) on the files of these two revisions, whether it was computed for this request or taken from the cache. If the files of the repositories do no harm (C90), then in every run in which finally no further requests come all requests are answered; so everyone who presses the button of the start page, changes a control of a result page or double clicks on a merge request gets the page with the report asked for, in whatever company.", "quantifier": "all command lines, machines, histories of the server, numbers of concurrent requests, interleavings, behaviours of git that keep the two revisions available", "why_tests_cant": "Universal over schedules and crowds of requests; safety and liveness at once.", "anchors": ["web/src/main.rs: compare, branches, do_compare_cached, do_compare", "core/src/lib.rs: compare_commits", "web/static/root.js", "web/static/table.js", "web/static/merge_requests.js"]}
{"id": "C94", "title": "The result page in the browser: controls, order of the table, links to rows", "statement": "Every control of a result page changes the argument that it shows: after any sequence of changes, made one after the other, the page that the user is on asks for the first comparison with exactly these changes, its controls show that, and if the server can compare it then it shows the report on it. The lists offer every dimension, method and repository, each once. When the page is ready its table has exactly one row for each entry of the report with numbers, the worse first: new calls on top, then by relative change, removed calls at the bottom. However often heads of columns are clicked, the rows stay the same, and after a click on a column with numbers they are sorted by the numbers that it is about, ascending if another column was sorted by before, else the other way round, equal ones in the order they had. Opening the link in a row selects exactly this row. False: clearing a field does nothing; a threshold that is no whole number is sent and refused; if a path has characters that are encoded in addresses, its links select nothing.", "quantifier": "all queries, sequences of changes, runs of the server, reports, sequences of clicks, rows", "why_tests_cant": "Universal over reports, visits and sequences of clicks; crosses JavaScript, HTTP and HTML.", "anchors": ["web/static/table.js", "web/static/common.js: urlRedirect", "web/templates/compare.stpl", "web/src/html.rs: order_percent, order_abs", "web/src/main.rs: compare"]}
{"id": "C95", "title": "Light and dark pages", "statement": "Whatever pages of the site are opened, one after the other, and however often the switch for dark pages is clicked: the page that is open, if it has a switch, is shown in the theme chosen, the switch shows this theme and local storage keeps it; the theme chosen is the one of the system when the first page with a switch was opened and every click turns it around. In a theme every element that had a background or a colour of text has that of the theme and not the other one, so has the body, tables are dark exactly in the dark theme, and all classes that have nothing to do with themes stay. Result pages, error pages and the list of merge requests have the switch. False if the browser restores the switch: the stored setting is overwritten.", "quantifier": "all sequences of pages and clicks, all class attributes, pages in standards and quirks mode", "why_tests_cant": "Universal over pages, class lists and sequences of events; an invariant of a state machine with storage.", "anchors": ["web/static/darkmode.js", "web/templates/compare.stpl", "web/templates/error.stpl", "web/templates/merge_requests.stpl"]}
{"id": "C96", "title": "Pages and scripts belong together", "statement": "On every result page the script for the table finds exactly one element, of the right kind, for each of the twelve identifiers that it uses; so do the script of the merge requests on its page, the script of the start page on the start page and the script for themes on all pages with its switch, whatever repositories, arguments, reports and messages the pages show. All scripts of all pages are either loaded from other servers or among the files of this one. The start page and that of the merge requests have one overlay and one spinner to show that the user has to wait. False: the button to fetch exists twice on the start page and only the first one works; the table of the result page is never closed.", "quantifier": "all pages of the site, whatever they show", "why_tests_cant": "Universal over reports, arguments, messages and lists of repositories; relates templates with scripts.", "anchors": ["web/templates/header.stpl", "web/templates/compare.stpl", "web/templates/root.stpl", "web/templates/merge_requests.stpl", "web/templates/error.stpl", "web/static/table.js", "web/static/root.js", "web/static/merge_requests.js", "web/static/common.js: loading", "web/static/darkmode.js"]}
{"id": "C97", "title": "The start page leads from step to step and shows when it is waiting", "statement": "Whatever repositories it offers, the form of the start page has four steps, all but the last with a button to the next one and all but the first with a button back. However often these are clicked, exactly one step is shown, the progress bar marks exactly the steps up to it, and every step can be reached. As long as no request fails, the page shows that it is waiting only while it waits for a list of branches; if the user does nothing then, it shows this exactly while it waits, there is never more than one open request, and the revisions on offer are the ones listed last for the selected repository. False: after a failed request the page shows for ever that it is waiting; users who do not wait can see it stop too early; the fields of the summary can be edited, which changes nothing.", "quantifier": "all lists of repositories, sequences of clicks and visits, answers of the server", "why_tests_cant": "Invariants over sequences of events of any length.", "anchors": ["web/static/root.js", "web/templates/root.stpl"]}
{"id": "C98", "title": "The files compared are those that the path pattern describes", "statement": "On a disk without symbolic links and unreadable directories, and with the rules of the glob crate: if the path of the repository has no wildcards and no component of the patterns is empty or begins with a dot, listing gives, sorted and each once, exactly the files and directories below the repository that one of the comma-separated patterns describes, name by name (? one character, * any text, [...] and [!...] characters, ** any number of directories), except those called mod.rs; or the listing is refused because they are too many (for patterns with at most one ** each that have no file in common, such as those of polkadot-sdk: exactly if there are more of them than allowed). All of them are inside the repository. A pattern is refused exactly if a component is not well formed. For polkadot-sdk the pattern of the pages finds exactly the weight files at six kinds of places. In reports a file goes by its path from the repository on. False: a pattern without '..' can lead out of the repository ('.?/name'); a repository path with a bracket is taken for a pattern and nothing is found; directories are listed as files; a file can count twice; for a repository written './a' files go by names that begin with 'a'.", "quantifier": "all disks, repositories, patterns, names", "why_tests_cant": "Universal over directory trees and patterns; the disagreement needs a pattern that nobody tries.", "anchors": ["core/src/lib.rs: list_files, compare_commits", "core/src/parse/mod.rs: PathStripping::strip", "web/static/common.js: path_pattern_presets"]}
{"id": "C99", "title": "The revisions compared are the commits that their names stand for", "statement": "If git does what its manual says: on the server, the name of a branch of the origin stands for its newest commit (with git_pull=false: for the one last seen), the name of a tag of the clone for its commit, a hash for the commit of the origin; exactly this commit is checked out and the files compared are those that it has at the places that the pattern describes, under their names in the commit. If nobody pushes, nothing in the clone or in a commit has the name origin/x of such a branch, and all others ask for proper names of revisions, this stays so whatever the server does: the button of the start page shows the report on the weight files of the newest commits of the two branches or tags chosen, in any company. On the command line without --git-force: what a branch of that name in the clone is at, else the revision of that name, else the branch of the origin as last seen. False: --git-pull does not ensure the newest commit on a branch that the clone already has; a file name is accepted as a revision; the branch that is checked out on the server is compared as what it is compared with; new tags cannot be compared, moved tags are never updated; a request for a:origin/x makes the server take a for x from then on.", "quantifier": "all clones, origins, revisions, commits, sequences of requests, interleavings", "why_tests_cant": "Universal over states of repositories and schedules; needs what git means by a name, and the disagreements need histories nobody sets up.", "anchors": ["core/src/lib.rs: CompareParams, compare_commits, git_pull, git_checkout, git_reset", "web/src/main.rs: compare, do_compare, branches"]}
{"id": "C100", "title": "A comparison that fails says which step failed, and why", "statement": "Comparing two revisions fails with a text exactly if this text tells what goes wrong first: the pattern has '..'; a revision cannot be fetched, checked out or reset (the name of the step and what git said, in quotes); a piece of the pattern is invalid or a place that it leads to cannot be read; too many files, with both numbers; without ignore_errors, the first file that cannot be read, is no Rust program or has no weights, with its path and the reason; a filter that is no regular expression. Every page with which the server answers a comparison of a known repository without success has status 500 and such a text as its title; and if nothing else is going on, the comparison has not been made recently and fails now, then its request is answered with the page that says why, in whatever order the server works. What is in quotes can be read back.", "quantifier": "all worlds, revisions, patterns, options, texts of files, runs of the server", "why_tests_cant": "Universal over behaviours of git, disk and parser and over schedules; an exact characterisation of all failures.", "anchors": ["core/src/lib.rs: compare_commits, list_files, git_pull, git_checkout, git_reset, compare_files", "core/src/parse/pallet.rs: parse_file_in_repo, parse_content", "core/src/parse/mod.rs: read_file", "web/src/main.rs: compare, do_compare", "web/templates/error.stpl"]}
{"id": "C101", "title": "Comparisons tell nothing about files outside of the repository", "statement": "On a disk as in C98: if no component of the path patterns is empty or begins with a dot, then the outcome of a comparison, be it a report or an error, is the same on any two machines that have the same git and the same names and contents of files in the repository, whatever else is different. False for other patterns, although patterns with '..' are refused: for every file above the repository or anywhere below a directory above it (with names without wildcards, commas and double dots) there is a pattern without '..' that lists exactly this file; if it is a readable text and no Rust program, a comparison without ignore_errors fails with a message that has its whole text in quotes, from which it can be read off uniquely; and the server answers such a request, in whatever order it works, with a page that shows this message.", "quantifier": "all disks, repositories, files, patterns, options, git behaviours, runs of the server", "why_tests_cant": "A statement about pairs of runs (noninterference); the negation holds for all files of a machine and needs patterns nobody tries.", "anchors": ["core/src/lib.rs: compare_commits, list_files", "core/src/parse/pallet.rs: parse_content", "web/src/main.rs: compare", "web/templates/error.stpl"]}
{"id": "C102", "title": "The five methods agree where they should", "statement": "For every call: whatever an exact method reports, the guessing method of the same kind reports too, with the same values, percentage, kind and point; conversely an exact method reports what the guessing one does if every component has an unambiguous annotation; so every row without error of a report by an exact method is in the report by the guessing one. For a call that both versions have, a worst-case method never reports a smaller change than Base, the asymptotic methods or (exact) the guessing worst case, and these answer wherever it does. A call without components, or whose components have only one possible value, is reported alike by all methods that answer. Not as expected: for an added or removed call the worst-case methods report what Base reports, that is its smallest weight.", "quantifier": "all versions of a call, options, hash orders, pairs of methods", "why_tests_cant": "Relates the outcomes of different methods on the same input; universal over equations and ranges.", "anchors": ["core/src/lib.rs: CompareMethod::min, CompareMethod::max, compare_extrinsics, extend_scoped_components, instance_component, compare_files"]}
{"id": "C103", "title": "Comparisons of three versions chain", "statement": "For three versions A, B, C of a call with the same annotated ranges and a method that looks at one point (Base, the asymptotic ones): the value of B is the same in the comparison of A with B and in that of B with C, and the comparison of A with C shows the value of A from the first and the value of C from the second; two unchanged steps are unchanged as a whole. False: if the ranges change, or with a worst-case method, the value of B is not the same in both comparisons; two steps below the threshold can be above it as a whole.", "quantifier": "all triples of versions, options, hash orders", "why_tests_cant": "A statement about triples of runs; the disagreements need particular triples.", "anchors": ["core/src/lib.rs: compare_extrinsics, instance_component, compare_terms, filter_changes"]}
{"id": "C104", "title": "What the README says, and where it is wrong", "statement": "Base considers only the constant part of the equations, if no component has an annotated minimum above zero. For n components at most 2^n points are evaluated, never more than 2^16, and exactly 2^n if every component has two different instances. Of two changes in a report the one with the smaller signed percentage comes first. The line compare files --old A... --new B... --method asymptotic compares these files, whichever the shell puts there, in time, with a threshold of 5 percent, as a table. Against the README: for every call c + k * n with n in [lo, hi], Base reports c + k * lo, not c; a change from 100 to 150 is shown exactly if the threshold is at most 50 (not at least); changes are not sorted by ascending absolute value.", "quantifier": "all calls, annotations, methods, reports, thresholds, lists of files", "why_tests_cant": "The README describes all inputs; the disagreements hold for all numbers or all thresholds, not at a point.", "anchors": ["README.md", "core/src/lib.rs: compare_extrinsics, extend_scoped_components, filter_changes, sort_changes", "cli/src/main.rs"]}
{"id": "C105", "title": "Names of parameters do not matter, if both versions use the same ones", "statement": "If the parameters of a call are renamed consistently in both versions (names of storage constants aside), every comparison is refused exactly if it was before; otherwise it reports the same percentage, added and removed alike, with methods that look at one point also the same values at the same (renamed) point, and as unchanged exactly the same calls if the renaming does not make names differ or agree up to underscores. False if only one version is renamed: although the call costs the same for the same arguments, the worst-case methods report at least the change between any two points of the same call; c + k * n with n in [lo, hi] of which n is renamed m is reported as changed by at least the change from c + k * lo to c + k * hi.", "quantifier": "all versions of a call, bijections of names, options, hash orders", "why_tests_cant": "A statement about pairs of inputs related by an arbitrary renaming; the negation holds for all calls, not at a point.", "anchors": ["core/src/lib.rs: compare_extrinsics, extend_scoped_components, instance_component, compare_terms", "core/src/term.rs: free_vars, eval"]}
{"id": "C106", "title": "How the programs end, and what they say", "statement": "The command line tool fails with a text exactly if its command line is understood and this text tells what goes wrong first: for compare files and parse files the first file that cannot be read, is no Rust program or has no weights (with its path and the reason), then a filter that is no regular expression, then an output format that does not exist; for compare commits as in C100. The text can be read off what is printed. The status is 101 exactly if a file is reached that is fatal or whose path does not end with a name, or the report is printed as a table and the prefix cannot be removed from the path of a row (the pattern is no regular expression, or the engine gives up); it is 1 exactly if something else goes wrong first, and 0 otherwise; it is 0 however much the weights have grown. The server serves exactly if there are repositories, all of them exist and have an origin on GitHub, the static directory exists, the certificate can be used and the address is free; otherwise it prints exactly what is missing first and ends with status 1, except for a certificate or key that cannot be used, which is a panic; it never panics because of a missing key. False: a missing directory is never reported as such, because git is run in it before the check.", "quantifier": "all command lines, files, worlds, machines, certificates, addresses", "why_tests_cant": "An exact characterisation of all ways to end; a branch that cannot be reached.", "anchors": ["cli/src/main.rs: main, print_changes", "web/src/main.rs: main", "web/src/git.rs", "core/src/parse/pallet.rs: parse_file, parse_files"]}
{"id": "C107", "title": "Narrowing a comparison hides rows and does nothing else", "statement": "If of two filters the second asks for less (fewer kinds of changes, a threshold at least as high, fewer files or names) and its patterns are valid, then whenever the comparison with the first one succeeds so does that with the second one; its report consists of exactly those rows of the first report that the second filter selects, unchanged and in the same order; for two commits it leaves the same state and runs the same commands. The table that the tool prints then has some of the error rows and some of the other rows of the wider table, in the same order.", "quantifier": "all versions, options, pairs of filters, formats of the table", "why_tests_cant": "A statement about pairs of runs, for all pairs of filters; sorting depends on the rows that are hidden.", "anchors": ["core/src/lib.rs: compare_files, filter_changes, sort_changes, compare_commits", "cli/src/main.rs: print_changes_human"]}
{"id": "C108", "title": "Exactly which weight functions are understood, which crash the tool, and which are refused", "statement": "There is a grammar, given independently of the parser, such that an expression is understood as a number, as a weight, or as the body of a function, with a given equation, exactly if the grammar says so; an attribute gives a range exactly if its first annotation is a proper range of u32 numbers, and of several annotations the last one counts; a function, a block and a file yield given extrinsics exactly if all of this holds and everything before the block is passed over. Parsing crashes exactly if a literal that is no integer below 2^128 is reached, that is, everything that is read before it is understood (or if a weight function consists of one statement that is no expression); everything else is refused with an error, and parsing always ends. If errors are ignored, a list of files crashes the tool exactly if one of them is fatal, wherever it stands; if not, exactly if all files before it are understood. Without fatal files, ignoring errors yields exactly what the understood files yield. Every file is exactly one of understood, refused and fatal. Built for release, comparing two revisions crashes exactly if the old revision can be checked out and listed and its files crash the parser so, or the old one can be used and this is the case of the new one; the repository is left at that revision.", "quantifier": "all expressions, attributes, functions, files, lists of files, character tables", "why_tests_cant": "An exact characterisation (if and only if) of the accepted, fatal and refused inputs.", "anchors": ["core/src/parse/pallet.rs: parse_expression, parse_scalar_expression, parse_call, parse_method_call, lit_to_value, parse_component_attrs, handle_method, handle_item, parse_content, parse_files_in_repo, try_parse_files_in_repo"]}
{"id": "C109", "title": "What a comparison costs, and what the server keeps", "statement": "Whatever git, the directories and the files answer, a comparison of two revisions does the work for the old revision and then the work for the new one, and stops at some point of this. The work for a revision is its git commands (a fetch if asked for; a reset to the branch of the remote and, if that fails, to the revision itself, or a checkout), then one walk through the directories for each comma-separated piece of the pattern, then the files one by one, none of them twice. A comparison of the server therefore takes at most six git commands (four if it is asked not to fetch), two walks for each piece of the pattern and 12000 reads, no file more than twice, and however requests are interleaved no request takes more steps than a number that can be told from it and from the number of shards. The server keeps exactly one result for each comparison whose last computation was successful, however long ago that was, except for the one that is just being computed anew. Nothing limits this: it can get to where it keeps any number of results, all of them too old to be used, and nothing is going on.", "quantifier": "all answers of git, file system and directories; all requests, interleavings and times; all reachable states of the server", "why_tests_cant": "tests compare a few revisions with one pattern; neither the amount of work for all answers of the world nor the growth of the cache over arbitrarily many requests can be observed by them", "anchors": ["web/src/main.rs:365-420", "core/src/lib.rs:172-330", "core/src/parse/pallet.rs:61-97"]}
{"id": "C110", "title": "Exactly which constants are understood, and as what a file counts", "statement": "There is a grammar, given independently of the parser, such that a constant is understood as the costs of a database, or as the weight of an empty block or extrinsic, with given equations, exactly if the grammar says so. Parsing crashes exactly if a literal that is no integer below 2^128 is reached (what reading costs is looked at first, wherever it stands; for overhead any constant of type Weight is looked at, whatever its name). A text gives what its first constant gives that is not skipped; it crashes the parser exactly if that constant is fatal; it is refused exactly if it is not Rust or all its constants are skipped; and parsing ends. A file counts as weight functions, as storage weights, as overhead weights or as none exactly if all kinds before refuse it and this kind understands it; finding this out crashes exactly if the first kind that does not refuse the file finds it fatal; it counts as one thing only.", "quantifier": "all expressions, constants, texts, files", "why_tests_cant": "An exact characterisation (if and only if) of the accepted, fatal and refused inputs.", "anchors": ["core/src/parse/storage.rs: parse_content, handle_item, parse_macro, parse_runtime_db_weight, parse_expression", "core/src/parse/overhead.rs: parse_content, handle_item, parse_macro", "core/src/term.rs: TryInto<SimpleTerm> for &ExprBinary", "core/src/parse/mod.rs: try_parse_file"]}
{"id": "C111", "title": "Exactly which requests die, and of what", "statement": "In release builds: a comparison that the server has made has panicked exactly if it crashes the parser (C108) in the state of the repository in which it began. The cache is poisoned exactly if such a comparison was made; the request that made it died at once, and no comparison was made after it. Only requests for comparisons and for branches in one of the repositories ever die; once nothing is left to do, the requests without an answer are exactly those that have died. A request for a comparison has died exactly because of such a comparison, made for itself or before for another request that has died. A request for branches has died exactly if git answered it with a message that is not UTF-8 or with lines that are no references.", "quantifier": "all request histories, interleavings, repositories, files, behaviours of git", "why_tests_cant": "An exact characterisation (if and only if) over all schedules and histories.", "anchors": ["web/src/main.rs: compare, branches, do_compare_cached", "core/src/parse/pallet.rs"]}
{"id": "C112", "title": "Nobody waits forever", "statement": "Consider any infinite run of the server, in which requests keep coming in any number, time passes, and handlers make their steps in any order; suppose nobody is passed over forever (a handler that can make a step again and again makes one again and again). If a lock on a shard keeps readers out while a writer waits, then every request is finished sooner or later; in release builds each is answered sooner or later or its handler panics, and in a peaceful world (C90) each is answered. Such runs exist from every reachable state. If the lock does not keep readers out, this is false: for every repository there is such a run in which listings of branches come and are all answered, but one comparison waits for its shard forever, and because it holds the mutex of the cache meanwhile, no other comparison gets there.", "quantifier": "all infinite runs: request sequences, schedules, repositories, files, behaviours of git", "why_tests_cant": "Liveness and starvation are about infinite executions; no finite test can observe either.", "anchors": ["web/src/main.rs: compare, branches, do_compare_cached (the mutex of #[cached] is held while REPOS.get_mut waits)", "Cargo.lock: dashmap 6.0.1"]}
{"id": "C113", "title": "Four workers", "statement": "The server has a fixed number of workers; every connection belongs to one, and a worker that has entered a handler does nothing else until the handler returns or panics. For every number of workers, every assignment of connections, every order in which workers look at them, and every schedule: whatever such a server reaches is reached by the server with a thread per request (so all properties about that one hold); at no time are more handlers in progress than there are workers; a connection gets the answer to its own request and no two get the same one; as long as some request is neither answered nor dead some worker can do something; the workers cannot work forever without new requests; in fair runs every request is looked at and answered or dead sooner or later even if requests keep coming (with writers preferred as in C112), and answered in a peaceful world. But while a worker is in a handler no other request that came to it is looked at even if it needs no repository and other workers are idle, and as many comparisons as there are workers keep the server from answering anything, even the version.", "quantifier": "all numbers of workers, assignments, schedules, infinite request histories, worlds", "why_tests_cant": "Refinement, absence of deadlock and liveness over all schedules with blocking handlers; tests send a few requests.", "anchors": ["web/src/main.rs:144-173 (HttpServer::new, workers(4), run)", "web/src/main.rs: the handlers never await"]}
{"id": "C114", "title": "What is printed, as text", "statement": "Whatever is taken as the width of a text: from the text of a table, in both formats, exactly its header and cells can be read (missing cells as empty ones), if no cell contains a bar or a line break or ends with a space; so tables with the same text have the same cells. The number of lines is determined by the number of rows, a column is as wide as its widest line, and all lines are of equal length if widths are lengths. On a terminal that interprets colours, what is read after a comparison is exactly what the tool prints without colours, if file and call names (and variables, with --print-terms) are harmless; the numbers, percentages and equations themselves always are. A line with coloured text is seven columns shorter than the lines around it. The notice that there are no changes, and an empty line, is printed exactly if no entry is left, and with --verbose only the empty line; otherwise --verbose makes no difference to the report. The standard output of a comparison is the report if the program ends well and empty otherwise; parse files announces in any case and reports exactly if all files can be read. A bar in a file name makes one cell look like two.", "quantifier": "all tables, reports, options, width functions, worlds and command lines", "why_tests_cant": "Reading back is a statement about all contents of cells; the repository has no test of the printed text.", "anchors": ["cli/src/main.rs: print_changes, print_changes_human, print_changes_csv, print, main", "README.md:90-138", "Cargo.lock: comfy-table 7.1.1, unicode-width 0.1.13"]}
{"id": "C115", "title": "What the evaluation of a call costs", "statement": "The evaluation of an equation follows the rules of 128-bit arithmetic, with a number of steps and a depth of nested calls that are determined by equation and scope; where variables stand for numbers these are the number of parts and the height of the equation. A comparison of a call evaluates exactly 2^k points, where k is the number of components whose lowest and highest value differ, k is at most 16, and all of these numbers occur; at each point each version is evaluated once, with as many steps as its equation has parts. The equation of a function is at most one higher than its expression is nested in the source. But there is no bound on the depth: for every n there is a weight file of 60 n + 93 characters that is read without error and whose function, compared with itself, nests more than n calls; and in a scope in which variables stand for equations, k + 1 variables can take 2^(k+2) - 2 steps. All equations read from a text together have at most twice as many parts as the text has characters; so each evaluation takes at most twice as many steps and nests at most twice as deep as its file has characters, at most 65536 times. All evaluations of all calls of two revisions together, listed or not, take at most 131072 steps for every character of their files.", "quantifier": "all equations, scopes, builds, hash orders, methods, versions, depths n", "why_tests_cant": "Exact costs and unbounded depth are statements about all equations; a test runs one with a large stack and few components.", "anchors": ["core/src/term.rs:136-149 (eval)", "core/src/lib.rs:491-615 (compare_extrinsics, extend_scoped_components)", "core/src/parse/pallet.rs: parse_expression, parse_scalar_expression"]}
{"id": "C116", "title": "The server as it is documented and deployed", "statement": "The command lines of the README, of both services of docker-compose.yml and of the image itself are understood, each as the server with exactly the root, repositories, address and certificates that it names. On any server, the button of the start page compares something exactly if the selected repository is polkadot-sdk, and a double click on a merge request that can be opened ends with an exception exactly if its repository is another one. Therefore, on a server that was started with any of the documented lines, on any machine, no visitor can compare any of the offered repositories with the button of the start page, whatever is clicked and whatever the server answers, and no merge request of a served repository can be opened. If polkadot-sdk is served as well, every visit can be continued to one in which the button works.", "quantifier": "all machines, visits (events, answers, local storage), merge requests", "why_tests_cant": "A statement about every visit of every server started in a certain way; deployments and pages are not tested at all, and the line and the table of presets are in different files and languages.", "anchors": ["docker-compose.yml:14-33", "Dockerfile:17", "README.md:67", "web/src/main.rs:33-58 (MainCmd)", "web/static/common.js:12-14", "web/static/root.js:147-171", "web/static/merge_requests.js"]}
{"id": "C117", "title": "In what order the merge requests are shown", "statement": "The script adds the merge requests newest first, but the table sorts its rows again after every one, by the text of the last column. For every order of texts and every way of writing days: the table shows the rows that were added, sorted by that text downwards, and equal texts newest first. It shows the merge requests of all repositories newest first exactly if no later time has a smaller text. False of the code, and shown: with dates as they are written in the United States, in every year a merge request changed on the 30th of September is shown above one changed on the 1st of October.", "quantifier": "all answers of GitHub, ways of writing dates, orders of texts, years and times of day", "why_tests_cant": "An exact condition over all lists and all ways of writing dates; the script has no tests, and what it shows depends on the browser and the season.", "anchors": ["web/static/merge_requests.js:45-57 (aaSorting)", "web/static/merge_requests.js:70-86 (sort, row.add, draw)", "web/templates/merge_requests.stpl"]}
{"id": "C118", "title": "What it means that a call is not mentioned", "statement": "The revisions consist of generated weight files, and a method that looks for the largest change is used with a threshold of T percent (at most 10^9). If what the command line tool prints, in any format, does not mention a call that is in both revisions and passes the filters by name, then for no parameters in the documented ranges does its new version cost more than T + 0.01 percent above the old one (also where the old one costs nothing); only in the format csv the call may instead be one that could not be compared. The same for the page of the server, where a call without a row either has its error, with the true reason, on the page or did not grow by more than that. Calls without an old version are mentioned whatever the threshold is. There are no false alarms: if a call with two versions is listed and could be compared, then for some parameters in the ranges it changed by at least T - 0.01 percent, or the old version costs nothing there. After k silent comparisons of successive revisions the call has grown by at most the k-th power of that, and increases do add up: eleven silent comparisons with a threshold of 5 can hide 53 percent. Against the text: silence does not mean that a call costs about the same, it can have become ten times cheaper for some parameters with a threshold of 10; and with the other methods a call can cost 90 times as much for some parameters and be hidden. It is assumed that components can be told apart without the underscores in their names, and that costs stay below 2^53.", "quantifier": "all texts of generated weight files, command lines, filters, thresholds, parameters in the ranges, behaviours of git", "why_tests_cant": "The reader of a report relies on what is not in it, for all parameters; a test looks at the rows that are there.", "anchors": ["core/src/lib.rs: filter_changes, compare_extrinsics, compare_commits, compare_files", "cli/src/main.rs: print_changes, main", "web/src/main.rs: compare", "web/templates/compare.stpl"]}
{"id": "C119", "title": "What caches between reader and server may do", "statement": "A reader looks through any number of caches, browsers included, that follow RFC 9111, while the server is replaced by others over time. The header of the version and of the badge tells caches to ask every time; so, through any caches that ask when they must, a reader sees the badge and the version that is deployed at that moment, and the lifetime of ten minutes in the same header has no effect. The check of a version (/version?is=) never passes unless the server ran that version at some time until then, and it is usable for deployments: through any caches that only use fresh answers again, it fails before the version is deployed and passes from then on. Against the text: nothing else says anything about caches; so the check can go on passing for ever after the version was taken back, and pages with comparisons may be used again after more than the ten minutes for which the server keeps comparisons.", "quantifier": "all numbers and behaviours of caches, times, requests and their spellings, sequences of deployed versions", "why_tests_cant": "A statement about all caches and all sequences of deployments; handlers are not tested and caches are not part of the repository.", "anchors": ["web/src/main.rs:342-383 (version, version_badge)", "web/src/main.rs:196-340 (the other handlers set no header)"]}
{"id": "C120", "title": "The version says which commit was built", "statement": "In a history whose annotated tags are those that make publish makes, each for one commit, and in which git abbreviates the hashes of different commits differently, what git describe --always prints identifies the commit, and so does the version of the library. The check /version?is= passes on a server exactly if it was built from that commit, and fails with 500 otherwise, whether the version stands in the address as it is (every + is then read as a space) or encoded as in a form. The version is one of Semantic Versioning exactly if what git printed consists of identifiers with dots between them, which is so for all such builds and for those without git; so the integration tests accept exactly the name of the program, a space and the version. Against the text: builds without git (from crates.io) all have the same version whatever their sources are, and VERSION_DIRTY is false for all builds, also with changed sources, since git is not asked for changes.", "quantifier": "all histories, commits, hashes, tags of releases, spellings of the check", "why_tests_cant": "An injectivity statement about all commits; the test only checks the build at hand.", "anchors": ["core/src/lib.rs:34-41 (VERSION, VERSION_DIRTY)", "core/src/testing.rs:12-20 (assert_version)", "Makefile:6-17", "web/src/main.rs:342-363 (version)"]}
{"id": "C121", "title": "Comparing a part of the files", "statement": "Comparing only the files with certain names (in both versions) gives exactly the rows of these files in the comparison of all files: unchanged, in the same order, before and after filtering and sorting. The comparison of a part succeeds if that of all files does, and that of all files if both parts do; the reports of both parts together have every row of the whole report once. The same holds for compare files given fewer files and for commits compared with a narrower path pattern, which also leaves the repository in the same state. False: comparing two directories one after the other instead of together, because compare files names calls by the last component of the path, so that files of the same name hide each other.", "quantifier": "all files, calls, parameters, filters, worlds, names", "why_tests_cant": "A relation between any two comparisons.", "anchors": ["core/src/lib.rs: compare_files, compare_commits, filter_changes, sort_changes", "core/src/parse/pallet.rs: parse_files", "cli/src/main.rs: main"]}
{"id": "C122", "title": "A slower call never looks better", "statement": "If the new version of a call is replaced by one that weighs at least as much wherever the components have the same numbers, with the same components and ranges or with further components of its own, its row shows at least the same change, for every method, unit and iteration order, also where the old version weighs nothing; likewise if the old version is replaced by a cheaper one, and in the report whatever else the files contain. Changes are compared in thousandths of a percent, as the program does. With the methods that look at one point the old weight stays the same, the percentage itself does not become smaller, and an increase that a threshold lets through is never hidden by becoming larger. In particular adding any work whatever to the equation of the new version never improves its row: always in builds with overflow checks, and in builds without them if the sums stay below 2^128; otherwise false, with a witness.", "quantifier": "all equations, ranges, methods, units, reports, added work", "why_tests_cant": "A relation between any two comparisons over all equations.", "anchors": ["core/src/lib.rs:491-569 (compare_extrinsics)", "core/src/lib.rs:686-746 (compare_files)", "core/src/lib.rs:834-836 (percent)", "core/src/term.rs:136-149 (eval)"]}
{"id": "C123", "title": "The unit of weights does not matter", "statement": "If both versions of a call are multiplied by the same positive number (weights written in a smaller unit, as when nanoseconds became picoseconds) and the weights at the points of the comparison stay below 2^53, then the call can still be compared and its row shows the same percentage, bit by bit, the same point, the same kind of change and the multiplied weights; for every method, unit and iteration order, also where the old version weighs nothing. It suffices that the two versions are multiplied at every point of the comparison, whatever their equations are. False for larger weights: a change can be seen in one unit and not in another.", "quantifier": "all equations, ranges, factors, methods", "why_tests_cant": "A relation between any two comparisons, bit by bit, over all equations.", "anchors": ["core/src/lib.rs:491-569 (compare_extrinsics)", "core/src/lib.rs:834-836 (percent)", "core/src/term.rs:136-149 (eval)"]}
{"id": "C124", "title": "Common work dilutes a change", "statement": "If both versions of a call get the same additional work (which may cost different amounts at different points, all weights staying below 2^53), then the change that is reported is between the former one and zero, for every method and unit: an increase does not become larger and does not turn into a decrease, and the other way round. Changes are compared in thousandths of a percent, as the program does.", "quantifier": "all equations, ranges, methods, units, added work", "why_tests_cant": "A relation between any two comparisons over all equations.", "anchors": ["core/src/lib.rs:491-569 (compare_extrinsics)", "core/src/lib.rs:834-836 (percent)"]}
