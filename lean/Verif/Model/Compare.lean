/-
Model of the comparison engine in `core/src/lib.rs`.
-/
import Verif.Model.Format

namespace Swc

/-- `core/src/parse/pallet.rs:29-33` `struct ComponentRange` (u32 bounds, inclusive). -/
structure ComponentRange where
  min : Nat
  max : Nat
  deriving DecidableEq, Repr

/-- `core/src/parse/pallet.rs:34` `HashMap<ComponentName, ComponentRange>`, as an association list (only `get`, `insert` and
`unwrap_or_default` are used, never iteration). -/
abbrev ComponentRanges := List (Str × ComponentRange)

/-- `core/src/parse/pallet.rs:37-44` `struct GenericExtrinsic<T>`. -/
structure Extrinsic (T : Type) where
  name : Str
  pallet : Str
  term : T
  compRanges : Option ComponentRanges
  deriving DecidableEq, Repr

/-- `core/src/parse/pallet.rs:46` -/
abbrev ChromaticExtrinsic := Extrinsic ChromaticTerm
/-- `core/src/parse/pallet.rs:47` -/
abbrev SimpleExtrinsic := Extrinsic SimpleTerm

/-- `core/src/lib.rs:112-117` `enum RelativeChange` (declaration order is the derived `Ord`). -/
inductive RelativeChange where
  | unchanged
  | added
  | removed
  | changed
  deriving DecidableEq, Repr

/-- Position in the derived order. -/
def RelativeChange.idx : RelativeChange → Nat
  | .unchanged => 0
  | .added => 1
  | .removed => 2
  | .changed => 3

/-- `core/src/lib.rs:334-345` `enum CompareMethod`. -/
inductive CompareMethod where
  | base
  | exactWorst
  | guessWorst
  | exactAsymptotic
  | asymptotic
  deriving DecidableEq, Repr

/-- `core/src/lib.rs:392-395` `enum MinOrMax`. -/
inductive MinOrMax where
  | min
  | max
  deriving DecidableEq, Repr

/-- `core/src/lib.rs:368-371` `struct ComponentInstanceStrategy` (constructors `lib.rs:373-389`). -/
structure Strategy where
  exact : Bool
  minOrMax : MinOrMax
  deriving DecidableEq, Repr

namespace CompareMethod

/-- `core/src/lib.rs:348-355` `CompareMethod::min`. -/
def minStrategy : CompareMethod → Strategy
  | .base => ⟨false, .min⟩
  | .guessWorst => ⟨false, .min⟩
  | .exactWorst => ⟨true, .min⟩
  | .exactAsymptotic => ⟨true, .max⟩
  | .asymptotic => ⟨false, .max⟩

/-- `core/src/lib.rs:357-364` `CompareMethod::max`. -/
def maxStrategy : CompareMethod → Strategy
  | .base => ⟨false, .min⟩
  | .guessWorst => ⟨false, .max⟩
  | .exactWorst => ⟨true, .max⟩
  | .exactAsymptotic => ⟨true, .max⟩
  | .asymptotic => ⟨false, .max⟩

end CompareMethod

/-- `core/src/lib.rs:94-105` `struct TermChange`. -/
structure TermChange where
  old : Option SimpleTerm
  oldV : Option Nat
  new : Option SimpleTerm
  newV : Option Nat
  scope : SimpleScope
  percent : F64
  change : RelativeChange
  method : CompareMethod
  deriving DecidableEq

/-- `core/src/lib.rs:61-65` `enum TermDiff`. -/
inductive TermDiff where
  | changed (c : TermChange)
  | warning (c : TermChange) (msg : Str)
  | failed (msg : Str)
  deriving DecidableEq

/-- `core/src/lib.rs:52-57` `struct ExtrinsicDiff`. -/
structure ExtrinsicDiff where
  name : Str
  file : Str
  change : TermDiff
  deriving DecidableEq

namespace ExtrinsicDiff

/-- `core/src/lib.rs:68-74` `ExtrinsicDiff::term`. -/
def term (e : ExtrinsicDiff) : Option TermChange :=
  match e.change with
  | .changed c => some c
  | .warning c _ => some c
  | .failed _ => none

/-- `core/src/lib.rs:76-81` `ExtrinsicDiff::error`. -/
def error (e : ExtrinsicDiff) : Option Str :=
  match e.change with
  | .failed m => some m
  | _ => none

/-- `core/src/lib.rs:83-88` `ExtrinsicDiff::warning`. -/
def warning (e : ExtrinsicDiff) : Option Str :=
  match e.change with
  | .warning _ m => some m
  | _ => none

end ExtrinsicDiff

/-- `core/src/lib.rs:121-146` `struct CompareParams`. -/
structure CompareParams where
  method : CompareMethod
  unit : Dimension
  ignoreErrors : Bool
  gitPull : Bool
  gitForce : Bool
  offline : Bool
  deriving DecidableEq, Repr

/-- `core/src/lib.rs:167-169` `CompareParams::should_pull`. -/
def CompareParams.shouldPull (p : CompareParams) : Bool := p.gitPull && !p.offline

/-- `core/src/lib.rs:150-164` `struct FilterParams`. -/
structure FilterParams where
  threshold : F64
  change : Option (List RelativeChange)
  extrinsic : Option Str
  pallet : Option Str
  deriving DecidableEq

/-- `core/src/lib.rs:466-468` `FilterParams::included`. -/
def FilterParams.included (p : FilterParams) (c : RelativeChange) : Bool :=
  match p.change with
  | none => true
  | some s => s.contains c

/-- `core/src/lib.rs:834-836` `percent`. -/
def percent (old new : Nat) : F64 :=
  F64.sub (F64.mul (F64.rnd 100) (F64.div (F64.ofNat new) (F64.ofNat old))) (F64.rnd 100)

/-- `core/src/lib.rs:823-831` `RelativeChange::new`; `unreachable!` for two missing values. -/
def RelativeChange.new (old new : Option Nat) : Res RelativeChange :=
  match old, new with
  | some _, some _ => .ok .changed
  | none, some _ => .ok .added
  | some _, none => .ok .removed
  | none, none => .panic

/-- `Option::<&SimpleTerm>::eq`, used by `old == new` in `core/src/lib.rs:668`. -/
def optTermEq : Option SimpleTerm → Option SimpleTerm → Bool
  | none, none => true
  | some a, some b => Term.rustEq a b
  | _, _ => false

/-- `old.map(|t| t.eval(scope)).transpose()?` -/
def evalOpt (b : Build) (t : Option SimpleTerm) (scope : SimpleScope) : Res (Option Nat) :=
  match t with
  | none => .ok none
  | some t => do
    let v ← Term.eval b t scope
    .ok (some v)

/-- `core/src/lib.rs:659-682` `compare_terms`. -/
def compareTerms (b : Build) (old new : Option SimpleTerm) (method : CompareMethod) (scope : SimpleScope) : Res TermChange := do
  let oldV ← evalOpt b old scope
  let newV ← evalOpt b new scope
  let change ← if optTermEq old new then Res.ok RelativeChange.unchanged else RelativeChange.new oldV newV
  .ok { old := old, oldV := oldV, new := new, newV := newV, change := change,
        percent := percent (oldV.getD 0) (newV.getD 0), method := method, scope := scope }

/-- Error text of `core/src/lib.rs:640-643`. -/
def differentRangesMsg (component pallet extrinsic : Str) : Str :=
  str% "Component " ++ component ++ str% " of call " ++ pallet ++ str% "::" ++ extrinsic
    ++ str% " has different ranges in the old and new version - use Guess instead!"

/-- Error text of `core/src/lib.rs:651-654`. -/
def noRangeMsg (component pallet extrinsic : Str) : Str :=
  str% "No range for component " ++ component ++ str% " of call " ++ pallet ++ str% "::" ++ extrinsic ++ str% " - use Guess instead!"

/-- Error text of `core/src/lib.rs:588-593`. -/
def tooManyMsg (pallet extrinsic : Str) (n : Nat) : Str :=
  str% "Too many components to compare: " ++ pallet ++ str% "::" ++ extrinsic ++ str% " has " ++ natToStr n
    ++ str% " components - limit is 16"

/-- `ra.as_ref().and_then(|r| r.get(component))` (`core/src/lib.rs:627`). -/
def rangeGet (r : Option ComponentRanges) (c : Str) : Option ComponentRange :=
  match r with
  | none => none
  | some m => List.lookup c m

/-- Select a bound of a range. -/
def ComponentRange.pick (r : ComponentRange) : MinOrMax → Nat
  | .min => r.min
  | .max => r.max

/-- `core/src/lib.rs:617-657` `instance_component`. -/
def instanceComponent (c : Str) (ra rb : Option ComponentRanges) (s : Strategy) (pallet extrinsic : Str) : Res Nat :=
  match rangeGet ra c, rangeGet rb c with
  | some r, none => .ok (r.pick s.minOrMax)
  | none, some r => .ok (r.pick s.minOrMax)
  | some x, some y =>
    if x = y then .ok (x.pick s.minOrMax)
    else match s.exact, s.minOrMax with
      | true, _ => .err (differentRangesMsg c pallet extrinsic)
      | false, .min => .ok (Nat.min x.min y.min)
      | false, .max => .ok (Nat.max x.max y.max)
  | none, none =>
    match s.exact, s.minOrMax with
    | false, .min => .ok 0
    | false, .max => .ok 100
    | true, _ => .err (noRangeMsg c pallet extrinsic)

/-- Iteration order of a `HashSet<String>`: an arbitrary permutation chosen by the hash seed. -/
structure HashOrder where
  order : List Str → List Str
  perm : ∀ l, (order l).Perm l

/-- `core/src/lib.rs:604-613`: the scope for corner number `i`; component `c` gets its low instance if bit `c` of `i` is 0. -/
def cornerScope (scope : SimpleScope) (i : Nat) (insts : List (Str × Nat × Nat)) : SimpleScope :=
  (insts.zipIdx).foldl
    (fun sc p => Scope.putVar sc p.1.1 (.scalar (if i.testBit p.2 then p.1.2.2 else p.1.2.1))) scope

/-- `core/src/lib.rs:604-613`: all corners, in the order of the loop; empty scopes are skipped. -/
def cornerScopes (scope : SimpleScope) (insts : List (Str × Nat × Nat)) : List SimpleScope :=
  ((List.range (2 ^ insts.length)).map fun i => cornerScope scope i insts).filter fun s => !Scope.isEmpty s

/-- `core/src/lib.rs:572-615` `extend_scoped_components`. -/
def extendScopedComponents (ho : HashOrder) (a c : Option SimpleExtrinsic) (method : CompareMethod) (scope : SimpleScope) :
    Res (List SimpleScope) := do
  let freeA := (a.map fun e => Term.freeVars scope e.term).getD []
  let freeB := (c.map fun e => Term.freeVars scope e.term).getD []
  let frees := ho.order (setUnion compare freeA freeB)
  let ra := a.map fun e => e.compRanges.getD []
  let rb := c.map fun e => e.compRanges.getD []
  let ext ← Res.unwrap (a.or c)
  if frees.length > 16 then .err (tooManyMsg ext.pallet ext.name frees.length)
  else do
    let insts ← frees.mapM fun f => do
      let lo ← instanceComponent f ra rb method.minStrategy ext.pallet ext.name
      let hi ← instanceComponent f ra rb method.maxStrategy ext.pallet ext.name
      Res.ok (f, lo, hi)
    .ok (setOfList SimpleScope.cmp (cornerScopes scope insts))

/-- `core/src/lib.rs:784-798` `TermChange::cmp`. -/
def TermChange.cmp (a c : TermChange) : Ordering :=
  (compare a.change.idx c.change.idx).then
    (compare (F64.toI128 (F64.mul a.percent (F64.rnd 1000))) (F64.toI128 (F64.mul c.percent (F64.rnd 1000))))

/-- `Iterator::max_by`: of several maximal elements the last one is returned. -/
def maxBy {α : Type} (cmp : α → α → Ordering) : List α → Option α
  | [] => none
  | x :: l => some (l.foldl (fun m y => if cmp m y = .gt then m else y) x)

/-- `core/src/lib.rs:496-501`: storage costs. -/
def baseScope : Dimension → SimpleScope
  | .time => Scope.withStorageWeights Scope.empty (.scalar 25000000) (.scalar 100000000)
  | .proof => Scope.withStorageWeights Scope.empty (.scalar 0) (.scalar 0)

/-- `core/src/lib.rs:504-519`: in the proof dimension READ and WRITE are substituted by 0. -/
def dropStorage (d : Dimension) (e : SimpleExtrinsic) : SimpleExtrinsic :=
  match d with
  | .time => e
  | .proof => { e with term := Term.substitute writeVar (.scalar 0) (Term.substitute readVar (.scalar 0) e.term) }

/-- `matches!(r.change, Changed | Unchanged)` -/
def RelativeChange.isChangedOrUnchanged : RelativeChange → Bool
  | .changed => true
  | .unchanged => true
  | _ => false

/-- `matches!(r.change, Added | Removed)` -/
def RelativeChange.isAddedOrRemoved : RelativeChange → Bool
  | .added => true
  | .removed => true
  | _ => false

/-- One iteration of the loop `core/src/lib.rs:528-545`. -/
def compareAt (b : Build) (old new : Option SimpleExtrinsic) (method : CompareMethod) (scope : SimpleScope) : Res TermChange :=
  if (old.map fun e => (Term.freeVars scope e.term).isEmpty).getD true then
    if (new.map fun e => (Term.freeVars scope e.term).isEmpty).getD true then
      compareTerms b (old.map (·.term)) (new.map (·.term)) method scope
    else .panic
  else .panic

/-- `core/src/lib.rs:551-568`: combine the results of all scopes. -/
def combineResults (results : List TermChange) : Res TermChange :=
  if results.all fun r => r.change.isAddedOrRemoved then Res.unwrap results.head?
  else if results.all fun r => r.change.isChangedOrUnchanged then Res.unwrap (maxBy TermChange.cmp results)
  else .panic

/-- `core/src/lib.rs:491-569` `compare_extrinsics`. -/
def compareExtrinsics (b : Build) (ho : HashOrder) (old new : Option SimpleExtrinsic) (params : CompareParams) :
    Res TermChange := do
  let scope := baseScope params.unit
  let old := old.map (dropStorage params.unit)
  let new := new.map (dropStorage params.unit)
  let scopes ← extendScopedComponents ho old new params.method scope
  let _ ← Res.unwrap (old.or new)
  let results ← scopes.mapM fun s => compareAt b old new params.method s
  combineResults results

/-- `core/src/lib.rs:750-764` `sanity_check_term`. -/
def sanityCheckTerm (t : SimpleTerm) : Res Unit := do
  let r ← Term.findLargestFactor readVar t
  let w ← Term.findLargestFactor writeVar t
  let reads := r.getD 0
  let writes := w.getD 0
  if max reads writes > 1000 then
    if reads > writes then .err (str% "Call has " ++ natToStr reads ++ str% " READs")
    else .err (str% "Call has " ++ natToStr writes ++ str% " WRITEs")
  else .ok ()

/-- The user-supplied regular expressions (`fancy_regex`): compiling may fail, matching may fail. -/
structure RegexEngine where
  compile : Str → Option (Str → Option Bool)
  errMsg : Str → Str

/-- `opt.map(|s| Regex::new(s)).transpose()?` (`core/src/lib.rs:690-691`). -/
def RegexEngine.compileOpt (rx : RegexEngine) : Option Str → Res (Option (Str → Option Bool))
  | none => .ok none
  | some s => match rx.compile s with
    | some r => .ok (some r)
    | none => .err (rx.errMsg s)

/-- `regex.as_ref().map_or(true, |r| r.is_match(&s).unwrap_or_default())` (`core/src/lib.rs:709,713`). -/
def regexMatches (r : Option (Str → Option Bool)) (s : Str) : Bool :=
  match r with
  | none => true
  | some m => (m s).getD false

/-- Derived `Ord` of `(String, String)`. -/
def cmpPair (a c : Str × Str) : Ordering := (compare a.1 c.1).then (compare a.2 c.2)

/-- `e.map_term(|t| t.simplify(unit).expect("Must simplify term"))` (`core/src/lib.rs:693-700`). -/
def simplifyExtrinsic (unit : Dimension) (e : ChromaticExtrinsic) : Res SimpleExtrinsic :=
  match Term.simplify unit e.term with
  | .ok t => .ok { name := e.name, pallet := e.pallet, term := t, compRanges := e.compRanges }
  | .err _ => .panic
  | .panic => .panic
  | .diverge => .diverge

/-- `list.iter().find(|&n| n.name == extrinsic && n.pallet == pallet)` (`core/src/lib.rs:717-718`). -/
def findExtrinsic (l : List SimpleExtrinsic) (pallet extrinsic : Str) : Option SimpleExtrinsic :=
  l.find? fun n => n.name == extrinsic && n.pallet == pallet

/-- `core/src/lib.rs:717-740`: the diff of one call; errors become `Failed`, a failed sanity check of the new (else old)
equation becomes `Warning`. -/
def diffOne (b : Build) (ho : HashOrder) (olds news : List SimpleExtrinsic) (params : CompareParams) (pallet extrinsic : Str) :
    Res TermDiff :=
  let new := findExtrinsic news pallet extrinsic
  let old := findExtrinsic olds pallet extrinsic
  match compareExtrinsics b ho old new params with
  | .err e => .ok (.failed e)
  | .ok change =>
    match new.or old with
    | none => .panic
    | some ext =>
      match sanityCheckTerm ext.term with
      | .ok _ => .ok (.changed change)
      | .err e => .ok (.warning change (e ++ str% ": " ++ ext.pallet ++ str% "::" ++ ext.name))
      | .panic => .panic
      | .diverge => .diverge
  | .panic => .panic
  | .diverge => .diverge

/-- The set of names compared, in iteration order (`core/src/lib.rs:703-705`). -/
def allNames (olds news : List SimpleExtrinsic) : List (Str × Str) :=
  setOfList cmpPair ((olds.map fun e => (e.pallet, e.name)) ++ (news.map fun e => (e.pallet, e.name)))

/-- `core/src/lib.rs:684-746` `compare_files`. -/
def compareFiles (b : Build) (ho : HashOrder) (rx : RegexEngine) (olds news : List ChromaticExtrinsic) (params : CompareParams)
    (filter : FilterParams) : Res (List ExtrinsicDiff) := do
  let extRegex ← rx.compileOpt filter.extrinsic
  let palletRegex ← rx.compileOpt filter.pallet
  let olds ← olds.mapM (simplifyExtrinsic params.unit)
  let news ← news.mapM (simplifyExtrinsic params.unit)
  let names := (allNames olds news).filter fun p => regexMatches palletRegex p.1 && regexMatches extRegex p.2
  names.mapM fun p => do
    let change ← diffOne b ho olds news params p.1 p.2
    Res.ok { name := p.2, file := p.1, change := change }

/-- `core/src/lib.rs:804-817`: the predicate of `filter_changes`. -/
def keepChange (params : FilterParams) (e : ExtrinsicDiff) : Bool :=
  match e.change with
  | .failed _ => true
  | .warning c _ | .changed c =>
    if !params.included c.change then false
    else match c.change with
      | .changed => !(F64.lt (F64.abs c.percent) params.threshold)
      | .unchanged => !(F64.le (F64.rnd (1 / 1000000)) params.threshold)
      | _ => true

/-- `core/src/lib.rs:801-820` `filter_changes`. -/
def filterChanges (diff : List ExtrinsicDiff) (params : FilterParams) : List ExtrinsicDiff := diff.filter (keepChange params)

/-- `core/src/lib.rs:771-780` `TermDiff::cmp`. -/
def TermDiff.cmp : TermDiff → TermDiff → Ordering
  | .failed _, _ => .lt
  | _, .failed _ => .gt
  | .warning a _, .changed c => a.cmp c
  | .changed a, .warning c _ => a.cmp c
  | .warning a _, .warning c _ => a.cmp c
  | .changed a, .changed c => a.cmp c

end Swc
