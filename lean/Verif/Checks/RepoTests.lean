/-
The unit tests of the repository, run on the model (by evaluation in the kernel).  They check the model against what its authors expect of the code;
they are tests, not proofs.  Texts of weight files go through the reader of `Verif.Model.RustText`.
-/
import Verif.Props.Corners
import Verif.Props.ParseFile
import Verif.Model.RustText
import Verif.Model.ParseStorage
import Verif.Model.Startup
import Verif.Model.Table
import Verif.Spec.Table

namespace Swc.Checks

open Term Spec

/-! ### `core/src/test/term.rs` -/


example : freeVars (T := Nat) Scope.empty (.scalar 123) = [] := by decide +kernel
example : freeVars (T := Nat) Scope.empty (.mul (.var (str% "unbound")) (.scalar 123)) = [str% "unbound"] := by decide +kernel
example : freeVars (T := Nat) (Scope.withVar Scope.empty (str% "b") (.scalar 0)) (.add (.var (str% "a")) (.var (str% "b"))) = [str% "a"] := by decide +kernel

example : findLargestFactor (T := Nat) (str% "F") (.scalar 123) = .ok none := by decide +kernel
example : findLargestFactor (T := Nat) (str% "F") (.var (str% "F")) = .ok none := by decide +kernel
example : findLargestFactor (T := Nat) (str% "F") (.add (.var (str% "F")) (.scalar 4)) = .ok none := by decide +kernel
example : findLargestFactor (T := Nat) (str% "F") (.mul (.scalar 4) (.var (str% "F"))) = .ok (some 4) := by decide +kernel
example : findLargestFactor (T := Nat) (str% "F") (.mul (.var (str% "F")) (.scalar 4)) = .ok (some 4) := by decide +kernel
example : findLargestFactor (T := Nat) (str% "F") (.add (.mul (.scalar 5) (.var (str% "F"))) (.mul (.var (str% "F")) (.scalar 5))) = .ok (some 5) := by decide +kernel

example : display (T := Nat) Dimension.fmtScalar (.scalar 123) = str% "123" := by decide +kernel
example : display (T := Nat) Dimension.fmtScalar (.var (str% "x")) = str% "x" := by decide +kernel
example : display (T := Nat) Dimension.fmtScalar (.add (.var (str% "x")) (.scalar 123)) = str% "x + 123" := by decide +kernel
example : display (T := Nat) Dimension.fmtScalar (.add (.var (str% "x")) (.scalar 0)) = str% "x" := by decide +kernel
example : display (T := Nat) Dimension.fmtScalar (.mul (.var (str% "x")) (.scalar 123)) = str% "x * 123" := by decide +kernel
example : display (T := Nat) Dimension.fmtScalar (.mul (.var (str% "x")) (.scalar 1)) = str% "x" := by decide +kernel
example : display (T := Nat) Dimension.fmtScalar (.add (.add (.scalar 0) (.scalar 0)) (.scalar 0)) = str% "0" := by decide +kernel
example : display (T := Nat) Dimension.fmtScalar (.add (.add (.scalar 0) (.scalar 0)) (.add (.scalar 0) (.scalar 0))) = str% "0" := by decide +kernel
example : display (T := Nat) Dimension.fmtScalar (.add (.scalar 12680000) (.add (.mul (.scalar 4410000) (.var (str% "c"))) (.add (.mul (.scalar 1) (.var (str% "READ"))) (.mul (.var (str% "WRITE")) (.scalar 1))))) = str% "12.68M + 4.41M * c + READ + WRITE" := by decide +kernel
example : display (T := Nat) Dimension.fmtScalar (.mul (.var (str% "m")) (.var (str% "READ"))) = str% "m * READ" := by decide +kernel
example : display (T := Nat) Dimension.fmtScalar (.mul (.mul (.scalar 1) (.var (str% "m"))) (.var (str% "READ"))) = str% "m * READ" := by decide +kernel
example : display (T := Nat) Dimension.fmtScalar (.add (.add (.add (.add (.scalar 9909) (.mul (.scalar 0) (.var (str% "l")))) (.mul (.scalar 0) (.var (str% "s")))) (.mul (.scalar 3) (.var (str% "READ")))) (.mul (.scalar 3) (.var (str% "WRITE")))) = str% "9.91K + 3 * READ + 3 * WRITE" := by decide +kernel

/-! ### `core/src/test/core.rs` -/

/-- `SimpleExtrinsic` with the given term and ranges. -/
private def ext (t : SimpleTerm) (r : Option ComponentRanges) : SimpleExtrinsic := ⟨[], [], t, r⟩
/-- The scopes as vectors, as in the test. -/
private def scopes (a c : Option SimpleExtrinsic) (m : CompareMethod) : Res (List (List (Str × SimpleTerm))) := do
  let l ← extendScopedComponents idOrder a c m Scope.empty
  .ok (l.map Scope.asVec)
/-- A scope of the test. -/
private def at' (l : List (Str × Nat)) : List (Str × SimpleTerm) := l.map fun p => (p.1, .scalar p.2)

example : scopes (some (ext (.var (str% "a")) none)) none .base = .ok [at' [(str% "a", 0)]] := by decide +kernel
example : scopes (some (ext (.var (str% "a")) none)) none .guessWorst = .ok [at' [(str% "a", 0)], at' [(str% "a", 100)]] := by decide +kernel
example : (scopes (some (ext (.var (str% "a")) none)) none .exactWorst).isOk = false := by decide +kernel
example : scopes none (some (ext (.var (str% "a")) none)) .base = .ok [at' [(str% "a", 0)]] := by decide +kernel
example : scopes none (some (ext (.var (str% "a")) none)) .guessWorst = .ok [at' [(str% "a", 0)], at' [(str% "a", 100)]] := by decide +kernel
example : (scopes none (some (ext (.var (str% "a")) none)) .exactWorst).isOk = false := by decide +kernel
example : scopes (some (ext (.var (str% "a")) none)) (some (ext (.var (str% "a")) none)) .base = .ok [at' [(str% "a", 0)]] := by decide +kernel
example : scopes (some (ext (.var (str% "a")) none)) (some (ext (.var (str% "a")) none)) .guessWorst = .ok [at' [(str% "a", 0)], at' [(str% "a", 100)]] := by decide +kernel
example : (scopes (some (ext (.var (str% "a")) none)) (some (ext (.var (str% "a")) none)) .exactWorst).isOk = false := by decide +kernel
example : scopes (some (ext (.var (str% "a")) (some [(str% "a", ⟨0, 200⟩)]))) none .base = .ok [at' [(str% "a", 0)]] := by decide +kernel
example : scopes (some (ext (.var (str% "a")) (some [(str% "a", ⟨0, 200⟩)]))) none .guessWorst = .ok [at' [(str% "a", 0)], at' [(str% "a", 200)]] := by decide +kernel
example : scopes (some (ext (.var (str% "a")) (some [(str% "a", ⟨0, 200⟩)]))) none .exactWorst = .ok [at' [(str% "a", 0)], at' [(str% "a", 200)]] := by decide +kernel
example : scopes none (some (ext (.var (str% "a")) (some [(str% "a", ⟨0, 200⟩)]))) .base = .ok [at' [(str% "a", 0)]] := by decide +kernel
example : scopes none (some (ext (.var (str% "a")) (some [(str% "a", ⟨0, 200⟩)]))) .guessWorst = .ok [at' [(str% "a", 0)], at' [(str% "a", 200)]] := by decide +kernel
example : scopes none (some (ext (.var (str% "a")) (some [(str% "a", ⟨0, 200⟩)]))) .exactWorst = .ok [at' [(str% "a", 0)], at' [(str% "a", 200)]] := by decide +kernel
example : scopes (some (ext (.var (str% "a")) (some [(str% "a", ⟨0, 200⟩)]))) (some (ext (.var (str% "a")) (some [(str% "a", ⟨0, 200⟩)]))) .base = .ok [at' [(str% "a", 0)]] := by decide +kernel
example : scopes (some (ext (.var (str% "a")) (some [(str% "a", ⟨0, 200⟩)]))) (some (ext (.var (str% "a")) (some [(str% "a", ⟨0, 200⟩)]))) .guessWorst = .ok [at' [(str% "a", 0)], at' [(str% "a", 200)]] := by decide +kernel
example : scopes (some (ext (.var (str% "a")) (some [(str% "a", ⟨0, 200⟩)]))) (some (ext (.var (str% "a")) (some [(str% "a", ⟨0, 200⟩)]))) .exactWorst = .ok [at' [(str% "a", 0)], at' [(str% "a", 200)]] := by decide +kernel
example : scopes (some (ext (.var (str% "a")) none)) (some (ext (.var (str% "b")) none)) .base = .ok [at' [(str% "a", 0), (str% "b", 0)]] := by decide +kernel
example : scopes (some (ext (.var (str% "a")) none)) (some (ext (.var (str% "b")) none)) .guessWorst = .ok [at' [(str% "a", 0), (str% "b", 0)], at' [(str% "a", 0), (str% "b", 100)], at' [(str% "a", 100), (str% "b", 0)], at' [(str% "a", 100), (str% "b", 100)]] := by decide +kernel
example : (scopes (some (ext (.var (str% "a")) none)) (some (ext (.var (str% "b")) none)) .exactWorst).isOk = false := by decide +kernel
example : scopes (some (ext (.var (str% "a")) (some [(str% "a", ⟨0, 200⟩)]))) (some (ext (.var (str% "b")) (some [(str% "a", ⟨0, 200⟩)]))) .base = .ok [at' [(str% "a", 0), (str% "b", 0)]] := by decide +kernel
example : scopes (some (ext (.var (str% "a")) (some [(str% "a", ⟨0, 200⟩)]))) (some (ext (.var (str% "b")) (some [(str% "a", ⟨0, 200⟩)]))) .guessWorst = .ok [at' [(str% "a", 0), (str% "b", 0)], at' [(str% "a", 0), (str% "b", 100)], at' [(str% "a", 200), (str% "b", 0)], at' [(str% "a", 200), (str% "b", 100)]] := by decide +kernel
example : (scopes (some (ext (.var (str% "a")) (some [(str% "a", ⟨0, 200⟩)]))) (some (ext (.var (str% "b")) (some [(str% "a", ⟨0, 200⟩)]))) .exactWorst).isOk = false := by decide +kernel
example : scopes (some (ext (.var (str% "a")) (some [(str% "a", ⟨0, 200⟩), (str% "b", ⟨0, 200⟩)]))) (some (ext (.var (str% "b")) (some [(str% "a", ⟨0, 200⟩), (str% "b", ⟨0, 200⟩)]))) .base = .ok [at' [(str% "a", 0), (str% "b", 0)]] := by decide +kernel
example : scopes (some (ext (.var (str% "a")) (some [(str% "a", ⟨0, 200⟩), (str% "b", ⟨0, 200⟩)]))) (some (ext (.var (str% "b")) (some [(str% "a", ⟨0, 200⟩), (str% "b", ⟨0, 200⟩)]))) .guessWorst = .ok [at' [(str% "a", 0), (str% "b", 0)], at' [(str% "a", 0), (str% "b", 200)], at' [(str% "a", 200), (str% "b", 0)], at' [(str% "a", 200), (str% "b", 200)]] := by decide +kernel
example : scopes (some (ext (.var (str% "a")) (some [(str% "a", ⟨0, 200⟩), (str% "b", ⟨0, 200⟩)]))) (some (ext (.var (str% "b")) (some [(str% "a", ⟨0, 200⟩), (str% "b", ⟨0, 200⟩)]))) .exactWorst = .ok [at' [(str% "a", 0), (str% "b", 0)], at' [(str% "a", 0), (str% "b", 200)], at' [(str% "a", 200), (str% "b", 0)], at' [(str% "a", 200), (str% "b", 200)]] := by decide +kernel

/-- `compare_extrinsics_works`: the ranges of both sides, the parameters, the change and the percentage up to 0.001. -/
private def changes (old new : SimpleTerm) (m : CompareMethod) (want : ℚ) : Bool :=
  let r : ComponentRanges := [(str% "l", ⟨0, 255⟩), (str% "n", ⟨0, 100⟩)]
  match compareExtrinsics .debug idOrder (some (ext old (some r))) (some (ext new (some r))) ⟨m, .time, false, false, false, true⟩ with
  | .ok c => c.change == .changed && (match c.percent with
    | .fin p => decide (|p - want| < 1 / 1000)
    | _ => false)
  | _ => false

example : changes (.add (.add (.add (.add (.scalar 7570000) (.mul (.scalar 13030000) (.var (str% "n")))) (.mul (.scalar 485560) (.var (str% "l")))) (.mul (.scalar 2) (.var (str% "READ")))) (.mul (.scalar 2) (.var (str% "WRITE")))) (.add (.add (.add (.add (.scalar 8350000) (.mul (.scalar 16890000) (.var (str% "n")))) (.mul (.scalar 402570) (.var (str% "l")))) (.mul (.scalar 2) (.var (str% "READ")))) (.mul (.scalar 2) (.var (str% "WRITE")))) .asymptotic (10853 / 500) = true := by decide +kernel
example : changes (.add (.add (.add (.add (.scalar 7570000) (.mul (.scalar 13030000) (.var (str% "n")))) (.mul (.scalar 485560) (.var (str% "l")))) (.mul (.scalar 2) (.var (str% "READ")))) (.mul (.scalar 2) (.var (str% "WRITE")))) (.add (.add (.add (.add (.scalar 8350000) (.mul (.scalar 16890000) (.var (str% "n")))) (.mul (.scalar 402570) (.var (str% "l")))) (.mul (.scalar 2) (.var (str% "READ")))) (.mul (.scalar 2) (.var (str% "WRITE")))) .exactWorst (3098 / 125) = true := by decide +kernel
example : changes (.add (.add (.add (.add (.scalar 7570000) (.mul (.scalar 13030000) (.var (str% "n")))) (.mul (.scalar 485560) (.var (str% "l")))) (.mul (.scalar 2) (.var (str% "READ")))) (.mul (.scalar 2) (.var (str% "WRITE")))) (.add (.add (.add (.add (.scalar 8350000) (.mul (.scalar 16890000) (.var (str% "n")))) (.mul (.scalar 402570) (.var (str% "l")))) (.mul (.scalar 2) (.var (str% "READ")))) (.mul (.scalar 2) (.var (str% "WRITE")))) .base (151 / 500) = true := by decide +kernel
example : changes (.add (.scalar 1000) (.mul (.scalar 1000) (.var (str% "n")))) (.add (.scalar 1000) (.mul (.scalar 500) (.var (str% "n")))) .asymptotic (-6188 / 125) = true := by decide +kernel
example : changes (.add (.scalar 1000) (.mul (.scalar 1000) (.var (str% "n")))) (.add (.scalar 1000) (.mul (.scalar 500) (.var (str% "n")))) .exactWorst (0) = true := by decide +kernel
example : changes (.add (.scalar 1000) (.mul (.scalar 1000) (.var (str% "n")))) (.add (.scalar 1000) (.mul (.scalar 500) (.var (str% "n")))) .base (0) = true := by decide +kernel
example : changes (.add (.scalar 1000) (.mul (.scalar 500) (.var (str% "n")))) (.add (.scalar 1000) (.mul (.scalar 1000) (.var (str% "n")))) .asymptotic (98039 / 1000) = true := by decide +kernel
example : changes (.add (.scalar 1000) (.mul (.scalar 500) (.var (str% "n")))) (.add (.scalar 1000) (.mul (.scalar 1000) (.var (str% "n")))) .exactWorst (98039 / 1000) = true := by decide +kernel
example : changes (.add (.scalar 1000) (.mul (.scalar 500) (.var (str% "n")))) (.add (.scalar 1000) (.mul (.scalar 1000) (.var (str% "n")))) .base (0) = true := by decide +kernel
example : changes (.add (.scalar 1000) (.mul (.scalar 500) (.var (str% "n")))) (.add (.scalar 1001) (.mul (.scalar 1000) (.var (str% "n")))) .asymptotic (98041 / 1000) = true := by decide +kernel
example : changes (.add (.scalar 1000) (.mul (.scalar 500) (.var (str% "n")))) (.add (.scalar 1001) (.mul (.scalar 1000) (.var (str% "n")))) .exactWorst (98041 / 1000) = true := by decide +kernel
example : changes (.add (.scalar 1000) (.mul (.scalar 500) (.var (str% "n")))) (.add (.scalar 1001) (.mul (.scalar 1000) (.var (str% "n")))) .base (99 / 1000) = true := by decide +kernel
example : changes (.add (.scalar 1000) (.mul (.scalar 500) (.var (str% "n")))) (.add (.scalar 999) (.mul (.scalar 1000) (.var (str% "n")))) .asymptotic (98037 / 1000) = true := by decide +kernel
example : changes (.add (.scalar 1000) (.mul (.scalar 500) (.var (str% "n")))) (.add (.scalar 999) (.mul (.scalar 1000) (.var (str% "n")))) .exactWorst (98037 / 1000) = true := by decide +kernel
example : changes (.add (.scalar 1000) (.mul (.scalar 500) (.var (str% "n")))) (.add (.scalar 999) (.mul (.scalar 1000) (.var (str% "n")))) .base (-1 / 10) = true := by decide +kernel

example : sanityCheckTerm (.scalar 30) = .ok () := by decide +kernel
example : sanityCheckTerm (.var (str% "READ")) = .ok () := by decide +kernel
example : sanityCheckTerm (.mul (.var (str% "READ")) (.scalar 1000)) = .ok () := by decide +kernel
example : sanityCheckTerm (.mul (.var (str% "READ")) (.scalar 1000)) = .ok () := by decide +kernel
example : sanityCheckTerm (.mul (.var (str% "READ")) (.scalar 1001)) = .err (str% "Call has 1001 READs") := by decide +kernel
example : sanityCheckTerm (.mul (.var (str% "WRITE")) (.scalar 1001)) = .err (str% "Call has 1001 WRITEs") := by decide +kernel
example : sanityCheckTerm (.add (.var (str% "READ")) (.scalar 1001)) = .ok () := by decide +kernel
example : sanityCheckTerm (.add (.var (str% "WRITE")) (.scalar 1001)) = .ok () := by decide +kernel
example : sanityCheckTerm (.mul (.scalar 1001) (.var (str% "WRITE"))) = .err (str% "Call has 1001 WRITEs") := by decide +kernel
example : sanityCheckTerm (.mul (.scalar 1001) (.var (str% "READ"))) = .err (str% "Call has 1001 READs") := by decide +kernel
example : sanityCheckTerm (.mul (.var (str% "READ")) (.scalar 2001)) = .err (str% "Call has 2001 READs") := by decide +kernel
example : sanityCheckTerm (.mul (.var (str% "WRITE")) (.scalar 2001)) = .err (str% "Call has 2001 WRITEs") := by decide +kernel
example : sanityCheckTerm (.mul (.var (str% "SOMETHING")) (.scalar 2001)) = .ok () := by decide +kernel
example : sanityCheckTerm (.mul (.mul (.var (str% "READ")) (.scalar 1234)) (.var (str% "READ"))) = .err (str% "Call has 1234 READs") := by decide +kernel
example : sanityCheckTerm (.mul (.mul (.var (str% "READ")) (.scalar 1234)) (.mul (.var (str% "WRITE")) (.scalar 2222))) = .err (str% "Call has 2222 WRITEs") := by decide +kernel

/-- `filter_rel_threshold_works` with `mocked_change`. -/
private def kept (old new : Nat) (threshold : ℚ) : Bool :=
  !(filterChanges [⟨[], [], .changed ⟨none, some old, none, some new, Scope.empty, percent old new, .changed, .guessWorst⟩⟩]
    ⟨F64.rnd threshold, none, none, none⟩).isEmpty

example : kept 10 11 9 = true := by decide +kernel
example : kept 10 11 11 = false := by decide +kernel
example : kept 673 673 10 = false := by decide +kernel
example : kept 100 200 10 = true := by decide +kernel
example : kept 100 200 100 = true := by decide +kernel
example : kept 100 200 101 = false := by decide +kernel

/-! ### `core/src/test/parse/mod.rs`, `web/src/git.rs` -/

example : PathStripping.fileName.strip [.cur] [.normal (str% "repo"), .normal (str% "pallet.rs")] = .ok (str% "pallet.rs") := by decide +kernel
example : PathStripping.fileName.strip [.normal (str% "repo")] [.normal (str% "repo"), .normal (str% "pallet.rs")] = .ok (str% "pallet.rs") := by decide +kernel
example : PathStripping.repoRelative.strip [.cur] [.normal (str% "repo"), .normal (str% "pallet.rs")] = .ok (str% "repo/pallet.rs") := by decide +kernel
example : PathStripping.repoRelative.strip [.normal (str% "repo")] [.normal (str% "repo"), .normal (str% "pallet.rs")] = .ok (str% "pallet.rs") := by decide +kernel
example : orgOf (str% "https://github.com/myorg/myrepo\n") = some (str% "myorg") := by decide +kernel
example : orgOf (str% "https://github.com/myorg/myrepo.git\n") = some (str% "myorg") := by decide +kernel
example : orgOf (str% "https://gitlab.com/myorg/myrepo\n") = none := by decide +kernel
example : orgOf (str% "ssh://gitlab.com:myorg/myrepo\n") = none := by decide +kernel

/-! ### `core/src/test/parse/pallet.rs` -/

example : parseContent rustSyn asciiClass [] (str% "impl WeightInfo for () { fn ext() -> Weight { ((5 as Weight)) } }") =
    .ok [⟨str% "ext", [], .value ⟨5, 0⟩, none⟩] := by decide +kernel
example : parseContent rustSyn asciiClass [] (str% "impl<T: frame_system::Config> my_pallet::WeightInfo for WeightInfo<T> { fn ext() -> Weight { 5 as Weight } }") =
    .ok [⟨str% "ext", [], .value ⟨5, 0⟩, none⟩] := by decide +kernel
example : parseContent rustSyn asciiClass [] (str% "impl WeightInfo for () {\n\tfn ext() -> Weight {\n    \tWeight::from_ref_time(5)\n\t}\n}") =
    .ok [⟨str% "ext", [], .value ⟨5, 0⟩, none⟩] := by decide +kernel
example : parseContent rustSyn asciiClass [] (str% "impl WeightInfo for () {\n\tfn ext() -> Weight {\n    \tWeight::from_proof_size(5)\n\t}\n}") =
    .ok [⟨str% "ext", [], .value ⟨0, 5⟩, none⟩] := by decide +kernel
example : parseContent rustSyn asciiClass [] (str% "impl<T: frame_system::Config> my_pallet::WeightInfo for WeightInfo<T> {\n\tfn ext() -> Weight {\n    \tWeight::from_parts(5, 0)\n\t}\n}") =
    .ok [⟨str% "ext", [], .value ⟨5, 0⟩, none⟩] := by decide +kernel
example : parseContent rustSyn asciiClass [] (str% "impl<T: frame_system::Config> my_pallet::WeightInfo for WeightInfo<T> {\n\t\t/// Storage: Staking MinCommission (r:1 w:0)\n\t\t/// Proof: Staking MinCommission (max_values: Some(1), max_size: Some(4), added: 499, mode: MaxEncodedLen)\n\t\t/// Storage: Staking Validators (r:1 w:1)\n\t\t/// Proof: Staking Validators (max_values: None, max_size: Some(45), added: 2520, mode: MaxEncodedLen)\n\t\tfn ext() -> Weight {\n\t\t\t//  Measured:  `694`\n\t\t\t//  Estimated: `3019`\n\t\t\t// Minimum execution time: 14_703 nanoseconds.\n\t\t\tWeight::from_parts(15, 30)\n\t\t}\n}") =
    .ok [⟨str% "ext", [], .value ⟨15, 30⟩, none⟩] := by decide +kernel
example : parseContent rustSyn asciiClass [] (str% "impl<T: frame_system::Config> my_pallet::WeightInfo for WeightInfo<T> {\n\t\t/// The range of component `c` is `[1_337, 2000]`.\n\t\t/// The range of component `d` is `[42, 999999]`.\n\t\tfn ext(c: u32, d: u32, ) -> Weight {\n\t\t\t(5 as Weight)\n\t\t}\n\t}") =
    .ok [⟨str% "ext", [], .value ⟨5, 0⟩, some [(str% "c", ⟨1337, 2000⟩), (str% "d", ⟨42, 999999⟩)]⟩] := by decide +kernel
example : (RustText.readExpr (str% "(123 as Weight)")).map parseScalar =
    some (.ok (.scalar 123)) := by decide +kernel
example : (RustText.readExpr (str% "(123 as Weight).saturating_add(6 as Weight)")).map parseScalar =
    some (.ok (.add (.scalar 123) (.scalar 6))) := by decide +kernel
example : (RustText.readExpr (str% "(123 as Weight).saturating_mul(5 as Weight).saturating_add(6 as Weight)")).map parseScalar =
    some (.ok (.add (.mul (.scalar 123) (.scalar 5)) (.scalar 6))) := by decide +kernel
example : (RustText.readExpr (str% "(123 as Weight).saturating_mul(5 as Weight).saturating_add(e as Weight).saturating_mul(7 as Weight)")).map parseScalar =
    some (.ok (.mul (.add (.mul (.scalar 123) (.scalar 5)) (.var (str% "e"))) (.scalar 7))) := by decide +kernel
example : (RustText.readExpr (str% "(123 as Weight)\n\t.saturating_mul(WEIGHT_PER_NANOS)")).map parseScalar =
    some (.ok (.mul (.scalar 123) (.var (str% "WEIGHT_PER_NANOS")))) := by decide +kernel
example : (RustText.readExpr (str% "(123 as Weight)\n\t.saturating_add(a as Weight)\n\t.saturating_mul(m)")).map parseScalar =
    some (.ok (.mul (.add (.scalar 123) (.var (str% "a"))) (.var (str% "m")))) := by decide +kernel
example : (RustText.readExpr (str% "T::DbWeight::get().reads(2 as Weight)")).map parseScalar =
    some (.ok (.mul (.scalar 2) (.var (str% "READ")))) := by decide +kernel
example : (RustText.readExpr (str% "T::DbWeight::get().writes(2 as Weight)")).map parseScalar =
    some (.ok (.mul (.scalar 2) (.var (str% "WRITE")))) := by decide +kernel
example : (RustText.readExpr (str% "T::DbWeight::get().reads(2 as Weight).saturating_add(3 as Weight)")).map parseScalar =
    some (.ok (.add (.mul (.scalar 2) (.var (str% "READ"))) (.scalar 3))) := by decide +kernel
example : (RustText.readExpr (str% "T::DbWeight::get().writes(2 as Weight).saturating_mul(3 as Weight)")).map parseScalar =
    some (.ok (.mul (.mul (.scalar 2) (.var (str% "WRITE"))) (.scalar 3))) := by decide +kernel
example : (RustText.readExpr (str% "T::DbWeight::get().writes(2 as Weight).saturating_add(3 as Weight)")).map parseScalar =
    some (.ok (.add (.mul (.scalar 2) (.var (str% "WRITE"))) (.scalar 3))) := by decide +kernel
example : (RustText.readExpr (str% "(123 as Weight)\n\t// Random comment\n\t.saturating_add((7 as Weight).saturating_mul(s as Weight))\n\t.saturating_add(T::DbWeight::get().reads(12 as Weight))\n\t.saturating_add(T::DbWeight::get().writes(12))\n\t.saturating_add(T::DbWeight::get().writes((1 as Weight).saturating_mul(s as Weight)))")).map parseScalar =
    some (.ok (.add (.add (.add (.add (.scalar 123) (.mul (.scalar 7) (.var (str% "s")))) (.mul (.scalar 12) (.var (str% "READ")))) (.mul (.scalar 12) (.var (str% "WRITE")))) (.mul (.mul (.scalar 1) (.var (str% "s"))) (.var (str% "WRITE"))))) := by decide +kernel
example : (RustText.readExpr (str% "Weight::zero()")).map parseScalar =
    some (.ok (.value 0)) := by decide +kernel
example : (RustText.readExpr (str% "Weight::zero().saturating_mul(Weight::from_ref_time(123))")).map parseScalar =
    some (.ok (.mul (.value 0) (.scalar 123))) := by decide +kernel
example : (RustText.readExpr (str% "Weight::from_ref_time(123 as u64)")).map parseScalar =
    some (.ok (.scalar 123)) := by decide +kernel
example : (RustText.readExpr (str% "Weight::from_ref_time(123 as u64)\n\t// Standard Error: 1_000\n\t.saturating_add(Weight::from_ref_time(7 as u64).saturating_mul(s as u64))\n\t.saturating_add(T::DbWeight::get().reads(12 as u64))\n\t.saturating_add(T::DbWeight::get().writes(12 as u64))\n\t.saturating_add(T::DbWeight::get().writes((1 as u64).saturating_mul(s as u64)))")).map parseScalar =
    some (.ok (.add (.add (.add (.add (.scalar 123) (.mul (.scalar 7) (.var (str% "s")))) (.mul (.scalar 12) (.var (str% "READ")))) (.mul (.scalar 12) (.var (str% "WRITE")))) (.mul (.mul (.scalar 1) (.var (str% "s"))) (.var (str% "WRITE"))))) := by decide +kernel
example : (RustText.readExpr (str% "Weight::from_ref_time(123)")).map parseExpression =
    some (.ok (.value ⟨123, 0⟩)) := by decide +kernel
example : (RustText.readExpr (str% "Weight::from_proof_size(123)")).map parseExpression =
    some (.ok (.value ⟨0, 123⟩)) := by decide +kernel
example : (RustText.readExpr (str% "Weight::from_parts(123, 321)")).map parseExpression =
    some (.ok (.value ⟨123, 321⟩)) := by decide +kernel
example : (RustText.readExpr (str% "Weight::from_parts(48_314_000, 2603)\n\t.saturating_add(RocksDbWeight::get().reads(1_u64))")).map parseExpression =
    some (.ok (.add (.value ⟨48314000, 2603⟩) (.mul (.scalar 1) (.var (str% "READ"))))) := by decide +kernel
example : (RustText.readExpr (str% "Weight::from_parts(33_236_000, 3054)\n\t.saturating_add(T::DbWeight::get().reads(2_u64))\n\t.saturating_add(T::DbWeight::get().writes(5_u64))")).map parseExpression =
    some (.ok (.add (.add (.value ⟨33236000, 3054⟩) (.mul (.scalar 2) (.var (str% "READ")))) (.mul (.scalar 5) (.var (str% "WRITE"))))) := by decide +kernel
example : (RustText.readExpr (str% "Weight::from_parts(890_989_741, 69146)\n// Standard Error: 58_282\n.saturating_add(Weight::from_ref_time(4_920_413).saturating_mul(s.into()))\n.saturating_add(RocksDbWeight::get().reads(1_u64))\n.saturating_add(RocksDbWeight::get().writes(1_u64))")).map parseExpression =
    some (.ok (.add (.add (.add (.value ⟨890989741, 69146⟩) (.mul (.value ⟨4920413, 0⟩) (.var (str% "s")))) (.mul (.scalar 1) (.var (str% "READ")))) (.mul (.scalar 1) (.var (str% "WRITE"))))) := by decide +kernel
example : (RustText.readExpr (str% "Weight::from_parts(10, 20)\n\t.saturating_add(T::DbWeight::get().writes((1_u64).saturating_mul(s.into())))")).map parseExpression =
    some (.ok (.add (.value ⟨10, 20⟩) (.mul (.mul (.value ⟨1, 0⟩) (.var (str% "s"))) (.var (str% "WRITE"))))) := by decide +kernel
example : (RustText.readExpr (str% "Weight::from_parts(0 as u64, 0)\n.saturating_add(Weight::from_parts(520 as u64, 0).saturating_mul(x as u64))")).map parseExpression =
    some (.ok (.add (.value ⟨0, 0⟩) (.mul (.value ⟨520, 0⟩) (.var (str% "x"))))) := by decide +kernel

/-! ### `core/src/test/parse/overhead.rs`, `core/src/test/parse/storage.rs` -/

/-- `test_data/new/extrinsic_weights.rs.txt` -/
private def extrinsicWeights : Str := List.flatten [
  str% "// This file is part of Substrate.\n",
  str% "\n",
  str% "// Copyright (C) 2022 Parity Technologies (UK) Ltd.\n",
  str% "// SPDX-License-Identifier: Apache-2.0\n",
  str% "\n",
  str% "// Licensed under the Apache License, Version 2.0 (the \"License\");\n",
  str% "// you may not use this file except in compliance with the License.\n",
  str% "// You may obtain a copy of the License at\n",
  str% "//\n",
  str% "// http://www.apache.org/licenses/LICENSE-2.0\n",
  str% "//\n",
  str% "// Unless required by applicable law or agreed to in writing, software\n",
  str% "// distributed under the License is distributed on an \"AS IS\" BASIS,\n",
  str% "// WITHOUT WARRANTIES OR CONDITIONS OF ANY KIND, either express or implied.\n",
  str% "// See the License for the specific language governing permissions and\n",
  str% "// limitations under the License.\n",
  str% "\n",
  str% "//! THIS FILE WAS AUTO-GENERATED USING THE SUBSTRATE BENCHMARK CLI VERSION 4.0.0-dev\n",
  str% "//! DATE: 2022-04-20 (Y/M/D)\n",
  str% "//!\n",
  str% "//! SHORT-NAME: `extrinsic`, LONG-NAME: `ExtrinsicBase`, RUNTIME: `Development`\n",
  str% "//! WARMUPS: `10`, REPEAT: `100`\n",
  str% "//! WEIGHT-PATH: `runtime/polkadot/constants/src/weights/`\n",
  str% "//! WEIGHT-METRIC: `Average`, WEIGHT-MUL: `1`, WEIGHT-ADD: `0`\n",
  str% "\n",
  str% "// Executed Command:\n",
  str% "//   ./target/production/polkadot\n",
  str% "//   benchmark\n",
  str% "//   overhead\n",
  str% "//   --chain=polkadot-dev\n",
  str% "//   --execution=wasm\n",
  str% "//   --wasm-execution=compiled\n",
  str% "//   --weight-path=runtime/polkadot/constants/src/weights/\n",
  str% "//   --warmup=10\n",
  str% "//   --repeat=100\n",
  str% "\n",
  str% "use frame_support::{\n",
  str% "\tparameter_types,\n",
  str% "\tweights::{constants::WEIGHT_PER_NANOS, Weight},\n",
  str% "};\n",
  str% "\n",
  str% "parameter_types! {\n",
  str% "\t/// Time to execute a NO-OP extrinsic, for example `System::remark`.\n",
  str% "\t/// Calculated by multiplying the *Average* with `1` and adding `0`.\n",
  str% "\t///\n",
  str% "\t/// Stats [NS]:\n",
  str% "\t///   Min, Max: 84_940, 86_590\n",
  str% "\t///   Average:  85_212\n",
  str% "\t///   Median:   85_156\n",
  str% "\t///   Std-Dev:  243.25\n",
  str% "\t///\n",
  str% "\t/// Percentiles [NS]:\n",
  str% "\t///   99th: 86_269\n",
  str% "\t///   95th: 85_510\n",
  str% "\t///   75th: 85_216\n",
  str% "\tpub const ExtrinsicBaseWeight: Weight = 85_212 * WEIGHT_PER_NANOS;\n",
  str% "}\n",
  str% "\n",
  str% "#[cfg(test)]\n",
  str% "mod test_weights {\n",
  str% "\tuse frame_support::weights::constants;\n",
  str% "\n",
  str% "\t/// Checks that the weight exists and is sane.\n",
  str% "\t// NOTE: If this test fails but you are sure that the generated values are fine,\n",
  str% "\t// you can delete it.\n",
  str% "\t#[test]\n",
  str% "\tfn sane() {\n",
  str% "\t\tlet w = super::ExtrinsicBaseWeight::get();\n",
  str% "\n",
  str% "\t\t// At least 10 µs.\n",
  str% "\t\tassert!(w >= 10 * constants::WEIGHT_PER_MICROS, \"Weight should be at least 10 µs.\");\n",
  str% "\t\t// At most 1 ms.\n",
  str% "\t\tassert!(w <= constants::WEIGHT_PER_MILLIS, \"Weight should be at most 1 ms.\");\n",
  str% "\t}\n",
  str% "}\n",
  str% ""]
/-- `test_data/new/block_weights.rs.txt` -/
private def blockWeights : Str := List.flatten [
  str% "// This file is part of Substrate.\n",
  str% "\n",
  str% "// Copyright (C) 2022 Parity Technologies (UK) Ltd.\n",
  str% "// SPDX-License-Identifier: Apache-2.0\n",
  str% "\n",
  str% "// Licensed under the Apache License, Version 2.0 (the \"License\");\n",
  str% "// you may not use this file except in compliance with the License.\n",
  str% "// You may obtain a copy of the License at\n",
  str% "//\n",
  str% "// http://www.apache.org/licenses/LICENSE-2.0\n",
  str% "//\n",
  str% "// Unless required by applicable law or agreed to in writing, software\n",
  str% "// distributed under the License is distributed on an \"AS IS\" BASIS,\n",
  str% "// WITHOUT WARRANTIES OR CONDITIONS OF ANY KIND, either express or implied.\n",
  str% "// See the License for the specific language governing permissions and\n",
  str% "// limitations under the License.\n",
  str% "\n",
  str% "//! THIS FILE WAS AUTO-GENERATED USING THE SUBSTRATE BENCHMARK CLI VERSION 4.0.0-dev\n",
  str% "//! DATE: 2022-04-20 (Y/M/D)\n",
  str% "//!\n",
  str% "//! SHORT-NAME: `block`, LONG-NAME: `BlockExecution`, RUNTIME: `Development`\n",
  str% "//! WARMUPS: `10`, REPEAT: `100`\n",
  str% "//! WEIGHT-PATH: `runtime/polkadot/constants/src/weights/`\n",
  str% "//! WEIGHT-METRIC: `Average`, WEIGHT-MUL: `1`, WEIGHT-ADD: `0`\n",
  str% "\n",
  str% "// Executed Command:\n",
  str% "//   ./target/production/polkadot\n",
  str% "//   benchmark\n",
  str% "//   overhead\n",
  str% "//   --chain=polkadot-dev\n",
  str% "//   --execution=wasm\n",
  str% "//   --wasm-execution=compiled\n",
  str% "//   --weight-path=runtime/polkadot/constants/src/weights/\n",
  str% "//   --warmup=10\n",
  str% "//   --repeat=100\n",
  str% "\n",
  str% "use frame_support::{\n",
  str% "\tparameter_types,\n",
  str% "\tweights::{constants::WEIGHT_PER_NANOS, Weight},\n",
  str% "};\n",
  str% "\n",
  str% "parameter_types! {\n",
  str% "\t/// Time to execute an empty block.\n",
  str% "\t/// Calculated by multiplying the *Average* with `1` and adding `0`.\n",
  str% "\t///\n",
  str% "\t/// Stats [NS]:\n",
  str% "\t///   Min, Max: 5_396_645, 6_251_001\n",
  str% "\t///   Average:  5_481_991\n",
  str% "\t///   Median:   5_466_500\n",
  str% "\t///   Std-Dev:  93839.52\n",
  str% "\t///\n",
  str% "\t/// Percentiles [NS]:\n",
  str% "\t///   99th: 5_648_597\n",
  str% "\t///   95th: 5_575_513\n",
  str% "\t///   75th: 5_494_189\n",
  str% "\tpub const BlockExecutionWeight: Weight = 5_481_991 * WEIGHT_PER_NANOS;\n",
  str% "}\n",
  str% "\n",
  str% "#[cfg(test)]\n",
  str% "mod test_weights {\n",
  str% "\tuse frame_support::weights::constants;\n",
  str% "\n",
  str% "\t/// Checks that the weight exists and is sane.\n",
  str% "\t// NOTE: If this test fails but you are sure that the generated values are fine,\n",
  str% "\t// you can delete it.\n",
  str% "\t#[test]\n",
  str% "\tfn sane() {\n",
  str% "\t\tlet w = super::BlockExecutionWeight::get();\n",
  str% "\n",
  str% "\t\t// At least 100 µs.\n",
  str% "\t\tassert!(w >= 100 * constants::WEIGHT_PER_MICROS, \"Weight should be at least 100 µs.\");\n",
  str% "\t\t// At most 50 ms.\n",
  str% "\t\tassert!(w <= 50 * constants::WEIGHT_PER_MILLIS, \"Weight should be at most 50 ms.\");\n",
  str% "\t}\n",
  str% "}\n",
  str% ""]
/-- `test_data/chromatic/extrinsic_weights.rs.txt` -/
private def chromaticExtrinsic : Str := List.flatten [
  str% "// This file is part of Substrate.\n",
  str% "\n",
  str% "// Copyright (C) Parity Technologies (UK) Ltd.\n",
  str% "// SPDX-License-Identifier: Apache-2.0\n",
  str% "\n",
  str% "// Licensed under the Apache License, Version 2.0 (the \"License\");\n",
  str% "// you may not use this file except in compliance with the License.\n",
  str% "// You may obtain a copy of the License at\n",
  str% "//\n",
  str% "// \thttp://www.apache.org/licenses/LICENSE-2.0\n",
  str% "//\n",
  str% "// Unless required by applicable law or agreed to in writing, software\n",
  str% "// distributed under the License is distributed on an \"AS IS\" BASIS,\n",
  str% "// WITHOUT WARRANTIES OR CONDITIONS OF ANY KIND, either express or implied.\n",
  str% "// See the License for the specific language governing permissions and\n",
  str% "// limitations under the License.\n",
  str% "\n",
  str% "//! THIS FILE WAS AUTO-GENERATED USING THE SUBSTRATE BENCHMARK CLI VERSION 4.0.0-dev\n",
  str% "//! DATE: 2023-01-25 (Y/M/D)\n",
  str% "//! HOSTNAME: `bm2`, CPU: `Intel(R) Core(TM) i7-7700K CPU @ 4.20GHz`\n",
  str% "//!\n",
  str% "//! SHORT-NAME: `extrinsic`, LONG-NAME: `ExtrinsicBase`, RUNTIME: `Development`\n",
  str% "//! WARMUPS: `10`, REPEAT: `100`\n",
  str% "//! WEIGHT-PATH: `./frame/support/src/weights/`\n",
  str% "//! WEIGHT-METRIC: `Average`, WEIGHT-MUL: `1.0`, WEIGHT-ADD: `0`\n",
  str% "\n",
  str% "// Executed Command:\n",
  str% "//   ./target/production/substrate\n",
  str% "//   benchmark\n",
  str% "//   overhead\n",
  str% "//   --chain=dev\n",
  str% "//   --execution=wasm\n",
  str% "//   --wasm-execution=compiled\n",
  str% "//   --weight-path=./frame/support/src/weights/\n",
  str% "//   --header=./HEADER-APACHE2\n",
  str% "//   --warmup=10\n",
  str% "//   --repeat=100\n",
  str% "\n",
  str% "use sp_core::parameter_types;\n",
  str% "use sp_weights::{constants::WEIGHT_REF_TIME_PER_NANOS, Weight};\n",
  str% "\n",
  str% "parameter_types! {\n",
  str% "\t/// Time to execute a NO-OP extrinsic, for example `System::remark`.\n",
  str% "\t/// Calculated by multiplying the *Average* with `1.0` and adding `0`.\n",
  str% "\t///\n",
  str% "\t/// Stats nanoseconds:\n",
  str% "\t///   Min, Max: 99_481, 103_304\n",
  str% "\t///   Average:  99_840\n",
  str% "\t///   Median:   99_795\n",
  str% "\t///   Std-Dev:  376.17\n",
  str% "\t///\n",
  str% "\t/// Percentiles nanoseconds:\n",
  str% "\t///   99th: 100_078\n",
  str% "\t///   95th: 100_051\n",
  str% "\t///   75th: 99_916\n",
  str% "\tpub const ExtrinsicBaseWeight: Weight =\n",
  str% "\t\tWeight::from_ref_time(WEIGHT_REF_TIME_PER_NANOS.saturating_mul(99_840));\n",
  str% "}\n",
  str% "\n",
  str% "#[cfg(test)]\n",
  str% "mod test_weights {\n",
  str% "\tuse sp_weights::constants;\n",
  str% "\n",
  str% "\t/// Checks that the weight exists and is sane.\n",
  str% "\t// NOTE: If this test fails but you are sure that the generated values are fine,\n",
  str% "\t// you can delete it.\n",
  str% "\t#[test]\n",
  str% "\tfn sane() {\n",
  str% "\t\tlet w = super::ExtrinsicBaseWeight::get();\n",
  str% "\n",
  str% "\t\t// At least 10 µs.\n",
  str% "\t\tassert!(\n",
  str% "\t\t\tw.ref_time() >= 10u64 * constants::WEIGHT_REF_TIME_PER_MICROS,\n",
  str% "\t\t\t\"Weight should be at least 10 µs.\"\n",
  str% "\t\t);\n",
  str% "\t\t// At most 1 ms.\n",
  str% "\t\tassert!(\n",
  str% "\t\t\tw.ref_time() <= constants::WEIGHT_REF_TIME_PER_MILLIS,\n",
  str% "\t\t\t\"Weight should be at most 1 ms.\"\n",
  str% "\t\t);\n",
  str% "\t}\n",
  str% "}\n",
  str% ""]
/-- `test_data/chromatic/block_weights.rs.txt` -/
private def chromaticBlock : Str := List.flatten [
  str% "// This file is part of Substrate.\n",
  str% "\n",
  str% "// Copyright (C) Parity Technologies (UK) Ltd.\n",
  str% "// SPDX-License-Identifier: Apache-2.0\n",
  str% "\n",
  str% "// Licensed under the Apache License, Version 2.0 (the \"License\");\n",
  str% "// you may not use this file except in compliance with the License.\n",
  str% "// You may obtain a copy of the License at\n",
  str% "//\n",
  str% "// \thttp://www.apache.org/licenses/LICENSE-2.0\n",
  str% "//\n",
  str% "// Unless required by applicable law or agreed to in writing, software\n",
  str% "// distributed under the License is distributed on an \"AS IS\" BASIS,\n",
  str% "// WITHOUT WARRANTIES OR CONDITIONS OF ANY KIND, either express or implied.\n",
  str% "// See the License for the specific language governing permissions and\n",
  str% "// limitations under the License.\n",
  str% "\n",
  str% "//! THIS FILE WAS AUTO-GENERATED USING THE SUBSTRATE BENCHMARK CLI VERSION 4.0.0-dev\n",
  str% "//! DATE: 2023-01-25 (Y/M/D)\n",
  str% "//! HOSTNAME: `bm2`, CPU: `Intel(R) Core(TM) i7-7700K CPU @ 4.20GHz`\n",
  str% "//!\n",
  str% "//! SHORT-NAME: `block`, LONG-NAME: `BlockExecution`, RUNTIME: `Development`\n",
  str% "//! WARMUPS: `10`, REPEAT: `100`\n",
  str% "//! WEIGHT-PATH: `./frame/support/src/weights/`\n",
  str% "//! WEIGHT-METRIC: `Average`, WEIGHT-MUL: `1.0`, WEIGHT-ADD: `0`\n",
  str% "\n",
  str% "// Executed Command:\n",
  str% "//   ./target/production/substrate\n",
  str% "//   benchmark\n",
  str% "//   overhead\n",
  str% "//   --chain=dev\n",
  str% "//   --execution=wasm\n",
  str% "//   --wasm-execution=compiled\n",
  str% "//   --weight-path=./frame/support/src/weights/\n",
  str% "//   --header=./HEADER-APACHE2\n",
  str% "//   --warmup=10\n",
  str% "//   --repeat=100\n",
  str% "\n",
  str% "use sp_core::parameter_types;\n",
  str% "use sp_weights::{constants::WEIGHT_REF_TIME_PER_NANOS, Weight};\n",
  str% "\n",
  str% "parameter_types! {\n",
  str% "\t/// Time to execute an empty block.\n",
  str% "\t/// Calculated by multiplying the *Average* with `1.0` and adding `0`.\n",
  str% "\t///\n",
  str% "\t/// Stats nanoseconds:\n",
  str% "\t///   Min, Max: 377_722, 414_752\n",
  str% "\t///   Average:  381_015\n",
  str% "\t///   Median:   379_751\n",
  str% "\t///   Std-Dev:  5462.64\n",
  str% "\t///\n",
  str% "\t/// Percentiles nanoseconds:\n",
  str% "\t///   99th: 413_074\n",
  str% "\t///   95th: 384_876\n",
  str% "\t///   75th: 380_642\n",
  str% "\tpub const BlockExecutionWeight: Weight =\n",
  str% "\t\tWeight::from_ref_time(WEIGHT_REF_TIME_PER_NANOS.saturating_mul(381_015));\n",
  str% "}\n",
  str% "\n",
  str% "#[cfg(test)]\n",
  str% "mod test_weights {\n",
  str% "\tuse sp_weights::constants;\n",
  str% "\n",
  str% "\t/// Checks that the weight exists and is sane.\n",
  str% "\t// NOTE: If this test fails but you are sure that the generated values are fine,\n",
  str% "\t// you can delete it.\n",
  str% "\t#[test]\n",
  str% "\tfn sane() {\n",
  str% "\t\tlet w = super::BlockExecutionWeight::get();\n",
  str% "\n",
  str% "\t\t// At least 100 µs.\n",
  str% "\t\tassert!(\n",
  str% "\t\t\tw.ref_time() >= 100u64 * constants::WEIGHT_REF_TIME_PER_MICROS,\n",
  str% "\t\t\t\"Weight should be at least 100 µs.\"\n",
  str% "\t\t);\n",
  str% "\t\t// At most 50 ms.\n",
  str% "\t\tassert!(\n",
  str% "\t\t\tw.ref_time() <= 50u64 * constants::WEIGHT_REF_TIME_PER_MILLIS,\n",
  str% "\t\t\t\"Weight should be at most 50 ms.\"\n",
  str% "\t\t);\n",
  str% "\t}\n",
  str% "}\n",
  str% ""]
/-- `test_data/new/rocksdb_weights.rs.txt` -/
private def rocksDb : Str := List.flatten [
  str% "// This file is part of Substrate.\n",
  str% "\n",
  str% "// Copyright (C) 2022 Parity Technologies (UK) Ltd.\n",
  str% "// SPDX-License-Identifier: Apache-2.0\n",
  str% "\n",
  str% "// Licensed under the Apache License, Version 2.0 (the \"License\");\n",
  str% "// you may not use this file except in compliance with the License.\n",
  str% "// You may obtain a copy of the License at\n",
  str% "//\n",
  str% "// http://www.apache.org/licenses/LICENSE-2.0\n",
  str% "//\n",
  str% "// Unless required by applicable law or agreed to in writing, software\n",
  str% "// distributed under the License is distributed on an \"AS IS\" BASIS,\n",
  str% "// WITHOUT WARRANTIES OR CONDITIONS OF ANY KIND, either express or implied.\n",
  str% "// See the License for the specific language governing permissions and\n",
  str% "// limitations under the License.\n",
  str% "\n",
  str% "pub mod constants {\n",
  str% "\tuse frame_support::{\n",
  str% "\t\tparameter_types,\n",
  str% "\t\tweights::{constants, RuntimeDbWeight},\n",
  str% "\t};\n",
  str% "\n",
  str% "\tparameter_types! {\n",
  str% "\t\t/// By default, Substrate uses RocksDB, so this will be the weight used throughout\n",
  str% "\t\t/// the runtime.\n",
  str% "\t\tpub const RocksDbWeight: RuntimeDbWeight = RuntimeDbWeight {\n",
  str% "\t\t\tread: 25 * constants::WEIGHT_PER_NANOS,\n",
  str% "\t\t\twrite: 100 * constants::WEIGHT_PER_NANOS,\n",
  str% "\t\t};\n",
  str% "\t}\n",
  str% "\n",
  str% "\t#[cfg(test)]\n",
  str% "\tmod test_db_weights { }\n",
  str% "}\n",
  str% ""]
/-- `test_data/new/paritydb_weights.rs.txt` -/
private def parityDb : Str := List.flatten [
  str% "// This file is part of Substrate.\n",
  str% "\n",
  str% "// Copyright (C) 2022 Parity Technologies (UK) Ltd.\n",
  str% "// SPDX-License-Identifier: Apache-2.0\n",
  str% "\n",
  str% "// Licensed under the Apache License, Version 2.0 (the \"License\");\n",
  str% "// you may not use this file except in compliance with the License.\n",
  str% "// You may obtain a copy of the License at\n",
  str% "//\n",
  str% "// http://www.apache.org/licenses/LICENSE-2.0\n",
  str% "//\n",
  str% "// Unless required by applicable law or agreed to in writing, software\n",
  str% "// distributed under the License is distributed on an \"AS IS\" BASIS,\n",
  str% "// WITHOUT WARRANTIES OR CONDITIONS OF ANY KIND, either express or implied.\n",
  str% "// See the License for the specific language governing permissions and\n",
  str% "// limitations under the License.\n",
  str% "\n",
  str% "use frame_support::{\n",
  str% "\tparameter_types,\n",
  str% "\tweights::{constants, RuntimeDbWeight},\n",
  str% "};\n",
  str% "\n",
  str% "parameter_types! {\n",
  str% "\t/// ParityDB can be enabled with a feature flag, but is still experimental. These weights\n",
  str% "\t/// are available for brave runtime engineers who may want to try this out as default.\n",
  str% "\tpub const ParityDbWeight: RuntimeDbWeight = RuntimeDbWeight {\n",
  str% "\t\tread: 8,\n",
  str% "\t\twrite: 50,\n",
  str% "\t};\n",
  str% "}\n",
  str% "\n",
  str% "#[cfg(test)]\n",
  str% "mod test_db_weights { }\n",
  str% ""]

example : overheadContent rustSyn extrinsicWeights = .ok (.extrinsicBase (.mul (.value ⟨85212, 0⟩) (.var (str% "WEIGHT_PER_NANOS")))) := by decide +kernel
example : overheadContent rustSyn blockWeights = .ok (.blockExecution (.mul (.value ⟨5481991, 0⟩) (.var (str% "WEIGHT_PER_NANOS")))) := by decide +kernel
example : overheadContent rustSyn chromaticExtrinsic =
    .ok (.extrinsicBase (.mul (.var (str% "WEIGHT_REF_TIME_PER_NANOS")) (.value ⟨99840, 0⟩))) := by decide +kernel
example : overheadContent rustSyn chromaticBlock =
    .ok (.blockExecution (.mul (.var (str% "WEIGHT_REF_TIME_PER_NANOS")) (.value ⟨381015, 0⟩))) := by decide +kernel
example : overheadContent rustSyn (str% "parameter_types! {\n\t/// Time to execute an empty block.\n\t/// Calculated by multiplying the *Average* with `1.0` and adding `0`.\n\t///\n\t/// Stats nanoseconds:\n\t///   Min, Max: 6_708_387, 7_042_534\n\t///   Average:  6_818_965\n\t///   Median:   6_826_464\n\t///   Std-Dev:  66350.7\n\t///\n\t/// Percentiles nanoseconds:\n\t///   99th: 6_991_352\n\t///   95th: 6_933_543\n\t///   75th: 6_854_332\n\tpub const BlockExecutionWeight: Weight =\n\t\tWeight::from_parts(WEIGHT_REF_TIME_PER_NANOS.saturating_mul(6_818_965), 0);\n\t}") =
    .ok (.blockExecution (.add (.mul (.var (str% "WEIGHT_REF_TIME_PER_NANOS")) (.value ⟨6818965, 0⟩)) (.value ⟨0, 0⟩))) := by decide +kernel
example : storageContent rustSyn rocksDb = .ok ⟨.rocks, ⟨.mul (.scalar 25) (.var (str% "constants::WEIGHT_PER_NANOS")),
    .mul (.scalar 100) (.var (str% "constants::WEIGHT_PER_NANOS"))⟩⟩ := by decide +kernel
example : storageContent rustSyn parityDb = .ok ⟨.parity, ⟨.scalar 8, .scalar 50⟩⟩ := by decide +kernel

/-! ### The tables of `README.md:90-116` and `:128-138`, as seen on a terminal -/

example : cut '\n' (visible ((⟨[str% "File", str% "Extrinsic", str% "Old", str% "New", str% "Change [%]"],
    [[str% "pallet_election_provider_multi_phase.rs", str% "feasibility_check", str% "1.23ms", str% "812.80us", AnsiColor.green.paint (str% "-33.90")],
      [str% "frame_benchmarking_baseline.rs", str% "addition", str% "162.00ns", str% "112.00ns", AnsiColor.green.paint (str% "-30.86")],
      [str% "runtime_parachains_hrmp.rs", str% "hrmp_cancel_open_request", str% "27.90us", str% "39.02us", AnsiColor.red.paint (str% "+39.86")],
      [str% "pallet_tips.rs", str% "slash_tip", str% "15.86us", str% "22.61us", AnsiColor.red.paint (str% "+42.56")],
      [str% "runtime_parachains_initializer.rs", str% "force_approve", str% "3.12us", str% "4.53us", AnsiColor.red.paint (str% "+45.02")],
      [str% "runtime_parachains_hrmp.rs", str% "clean_open_channel_requests", str% "366.82us", str% "590.73us", AnsiColor.red.paint (str% "+61.04")],
      [str% "runtime_parachains_hrmp.rs", str% "hrmp_accept_open_channel", str% "29.81us", str% "48.54us", AnsiColor.red.paint (str% "+62.81")],
      [str% "runtime_parachains_hrmp.rs", str% "hrmp_close_channel", str% "27.58us", str% "44.92us", AnsiColor.red.paint (str% "+62.89")],
      [str% "runtime_parachains_hrmp.rs", str% "force_process_hrmp_open", str% "2.17ms", str% "3.64ms", AnsiColor.red.paint (str% "+67.28")],
      [str% "runtime_parachains_hrmp.rs", str% "hrmp_init_open_channel", str% "32.67us", str% "55.70us", AnsiColor.red.paint (str% "+70.49")],
      [str% "runtime_parachains_hrmp.rs", str% "force_process_hrmp_close", str% "1.21ms", str% "2.11ms", AnsiColor.red.paint (str% "+74.25")],
      [str% "runtime_parachains_hrmp.rs", str% "force_clean_hrmp", str% "1.82ms", str% "3.27ms", AnsiColor.red.paint (str% "+80.04")]]⟩ : TableOut).text asciiWidth false)) = [
  str% "+-----------------------------------------+-----------------------------+----------+----------+---------------+",
  str% "| File                                    | Extrinsic                   | Old      | New      | Change [%]    |",
  str% "+=============================================================================================================+",
  str% "| pallet_election_provider_multi_phase.rs | feasibility_check           | 1.23ms   | 812.80us | -33.90 |",
  str% "|-----------------------------------------+-----------------------------+----------+----------+---------------|",
  str% "| frame_benchmarking_baseline.rs          | addition                    | 162.00ns | 112.00ns | -30.86 |",
  str% "|-----------------------------------------+-----------------------------+----------+----------+---------------|",
  str% "| runtime_parachains_hrmp.rs              | hrmp_cancel_open_request    | 27.90us  | 39.02us  | +39.86 |",
  str% "|-----------------------------------------+-----------------------------+----------+----------+---------------|",
  str% "| pallet_tips.rs                          | slash_tip                   | 15.86us  | 22.61us  | +42.56 |",
  str% "|-----------------------------------------+-----------------------------+----------+----------+---------------|",
  str% "| runtime_parachains_initializer.rs       | force_approve               | 3.12us   | 4.53us   | +45.02 |",
  str% "|-----------------------------------------+-----------------------------+----------+----------+---------------|",
  str% "| runtime_parachains_hrmp.rs              | clean_open_channel_requests | 366.82us | 590.73us | +61.04 |",
  str% "|-----------------------------------------+-----------------------------+----------+----------+---------------|",
  str% "| runtime_parachains_hrmp.rs              | hrmp_accept_open_channel    | 29.81us  | 48.54us  | +62.81 |",
  str% "|-----------------------------------------+-----------------------------+----------+----------+---------------|",
  str% "| runtime_parachains_hrmp.rs              | hrmp_close_channel          | 27.58us  | 44.92us  | +62.89 |",
  str% "|-----------------------------------------+-----------------------------+----------+----------+---------------|",
  str% "| runtime_parachains_hrmp.rs              | force_process_hrmp_open     | 2.17ms   | 3.64ms   | +67.28 |",
  str% "|-----------------------------------------+-----------------------------+----------+----------+---------------|",
  str% "| runtime_parachains_hrmp.rs              | hrmp_init_open_channel      | 32.67us  | 55.70us  | +70.49 |",
  str% "|-----------------------------------------+-----------------------------+----------+----------+---------------|",
  str% "| runtime_parachains_hrmp.rs              | force_process_hrmp_close    | 1.21ms   | 2.11ms   | +74.25 |",
  str% "|-----------------------------------------+-----------------------------+----------+----------+---------------|",
  str% "| runtime_parachains_hrmp.rs              | force_clean_hrmp            | 1.82ms   | 3.27ms   | +80.04 |",
  str% "+-----------------------------------------+-----------------------------+----------+----------+---------------+"] := by
  decide +kernel

example : cut '\n' (visible ((⟨[str% "File", str% "Extrinsic", str% "Old", str% "New", str% "Change [%]"],
    [[str% "runtime/rococo/src/weights/runtime_parachains_paras_inherent.rs", str% "enter_variable_disputes", str% "-", str% "-", str% "ERROR"],
      [str% "runtime/westend/src/weights/xcm/pallet_xcm_benchmarks_generic.rs", str% "set_topic", str% "2.59us", str% "10.01us", AnsiColor.red.paint (str% "+286.67")],
      [str% "runtime/westend/src/weights/xcm/pallet_xcm_benchmarks_generic.rs", str% "clear_transact_status", str% "2.65us", str% "9.96us", AnsiColor.red.paint (str% "+276.24")],
      [str% "runtime/westend/src/weights/xcm/pallet_xcm_benchmarks_generic.rs", str% "clear_topic", str% "2.59us", str% "8.29us", AnsiColor.red.paint (str% "+220.04")]]⟩ : TableOut).text asciiWidth false)) = [
  str% "+------------------------------------------------------------------+-------------------------+--------+---------+----------------+",
  str% "| File                                                             | Extrinsic               | Old    | New     | Change [%]     |",
  str% "+================================================================================================================================+",
  str% "| runtime/rococo/src/weights/runtime_parachains_paras_inherent.rs  | enter_variable_disputes | -      | -       | ERROR          |",
  str% "|------------------------------------------------------------------+-------------------------+--------+---------+----------------|",
  str% "| runtime/westend/src/weights/xcm/pallet_xcm_benchmarks_generic.rs | set_topic               | 2.59us | 10.01us | +286.67 |",
  str% "|------------------------------------------------------------------+-------------------------+--------+---------+----------------|",
  str% "| runtime/westend/src/weights/xcm/pallet_xcm_benchmarks_generic.rs | clear_transact_status   | 2.65us | 9.96us  | +276.24 |",
  str% "|------------------------------------------------------------------+-------------------------+--------+---------+----------------|",
  str% "| runtime/westend/src/weights/xcm/pallet_xcm_benchmarks_generic.rs | clear_topic             | 2.59us | 8.29us  | +220.04 |",
  str% "+------------------------------------------------------------------+-------------------------+--------+---------+----------------+"] := by
  decide +kernel

end Swc.Checks
