/-
Concrete programs and requests for which the code does not do what one would expect, from their text.
-/
import Verif.Props.ConstText
import Verif.Props.Query
import Verif.Props.CompareFiles
import Verif.Props.CliOut
import Verif.Model.RustText

namespace Swc

open Spec Term

/-! ### Constants of the runtime in weight functions -/

/-- A weight function in the style of the first weight files: five nanoseconds, of 1000 weight units each. -/
def exNanosText : Str := str% "impl WeightInfo for () { fn f() -> Weight { (5 as Weight).saturating_mul(WEIGHT_PER_NANOS) } }"

/-- The report on one file against another one, from their texts. -/
def exTextReport (old new : Str) (method : CompareMethod) : Res (List (ExRow × Option Str)) := do
  let a ← parseContent rustSyn asciiClass (str% "p") old
  let b ← parseContent rustSyn asciiClass (str% "p") new
  let d ← compareFiles .release idOrder exRegex a b (exParams method .time) exFilter
  .ok (d.map fun d => (exShow d, d.error))

/-- C80 is false for functions that use the constants of the runtime: the equation costs 5000, but the constant is taken for a component without range,
so 500 is reported, and the exact methods refuse the function. -/
theorem C80_false_nanos :
    (∃ e, parseContent rustSyn asciiClass (str% "p") exNanosText = .ok [e] ∧ (simplify .time e.term).bind (eval .release · Scope.fromSubstrate) = .ok 5000) ∧
    exTextReport exNanosText exNanosText .asymptotic = .ok [(⟨str% "p", str% "f", some 500, some 500, some .unchanged, false⟩, none)] ∧
    exTextReport exNanosText exNanosText .exactWorst = .ok [(⟨str% "p", str% "f", none, none, none, false⟩,
      some (noRangeMsg (str% "WEIGHT_PER_NANOS") (str% "p") (str% "f")))] := by
  refine ⟨⟨⟨str% "f", str% "p", .mul (.value ⟨5, 0⟩) (.var (str% "WEIGHT_PER_NANOS")), none⟩, ?_, ?_⟩, ?_, ?_⟩ <;> decide +kernel

/-! ### Storage and overhead files -/

/-- A file with database weights, with the given type, struct name and expression for reads. -/
def exDbWith (ty path read : Str) : Str :=
  str% "parameter_types! { pub const RocksDbWeight: " ++ ty ++ str% " = " ++ path ++ str% " { read: " ++ read ++ str% ", write: 7 }; }"

/-- Parentheses and casts are refused in database weights, although they do not change the value. -/
theorem C50_false_refused :
    storageContent rustSyn (exDbWith (str% "RuntimeDbWeight") (str% "RuntimeDbWeight") (str% "5 * 1000")) =
      .ok ⟨.rocks, .mul (.scalar 5) (.scalar 1000), .scalar 7⟩ ∧
    storageContent rustSyn (exDbWith (str% "RuntimeDbWeight") (str% "RuntimeDbWeight") (str% "(5 * 1000)")) = .err (str% "No DB weights found") ∧
    storageContent rustSyn (exDbWith (str% "RuntimeDbWeight") (str% "RuntimeDbWeight") (str% "5 * 1000 as u64")) = .err (str% "No DB weights found") := by
  decide +kernel

/-- Another type, whose path spells the same letters, is taken for the type of database weights. -/
theorem C50_false_path :
    storageContent rustSyn (exDbWith (str% "Runtime::DbWeight") (str% "Runtime::Db::Weight") (str% "5")) = .ok ⟨.rocks, .scalar 5, .scalar 7⟩ := by
  decide +kernel

/-- A bare number is refused as overhead, a product is not. -/
theorem C51_false_literal :
    overheadContent rustSyn (str% "parameter_types! { pub const BlockExecutionWeight: Weight = 5 * 1000; }") =
      .ok (.blockExecution (.mul (.value ⟨5, 0⟩) (.value ⟨1000, 0⟩))) ∧
    overheadContent rustSyn (str% "parameter_types! { pub const BlockExecutionWeight: Weight = 5000; }") = .err (str% "No Overhead weights found") := by
  decide +kernel

/-! ### HTML entities in links -/

/-- A revision whose name looks like an entity arrives as another one, although links are no HTML: if `&lt;` is decoded, then whoever writes `a&lt;b` into the
field for the old revision on a result page gets the comparison with `a<b`. -/
theorem C70_false_entities (u : Utf8Lossy) (ent : Entities) (h : ent.decode (str% "a&lt;b") = str% "a<b") {q : Bytes} {a : CompareArgs}
    (hq : parseQuery u q = some a) : ∃ q' a', urlRedirect u q (str% "old") (str% "a&lt;b") = some q' ∧ requestArgs u ent q' = some a' ∧ a'.old = str% "a<b" := by
  obtain ⟨q', h1, h2⟩ := C70_control u hq (.old (v := str% "a&lt;b")) (by decide)
  have h3 := congrArg (Option.map fun a => ({ a with new := ent.decode a.new, old := ent.decode a.old, pathPattern := ent.decode a.pathPattern } : CompareArgs)) h2
  exact ⟨q', _, h1, h3, h⟩

/-! ### Comma separated values -/

/-- `--strip-path-prefix` has no effect on comma separated values, be it a regular expression or not. -/
theorem C60_strip_ignored (env : PrintEnv) (diff : List ExtrinsicDiff) (f : FormatParams) (unit : Dimension) (h : f.format = .csv) (p : Option Str) :
    printChanges env diff { f with stripPathPrefix := p } unit = printChanges env diff f unit := by
  unfold printChanges
  simp only [h]
  rfl

end Swc
