/-
Model of `core/src/parse/storage.rs`, `core/src/parse/overhead.rs` and `try_parse_file` (`core/src/parse/mod.rs:73-85`).
-/
import Verif.Model.ParsePallet

namespace Swc

open Term

/-! ### The traversal shared by both parsers -/

mutual

/-- `core/src/parse/storage.rs:74-102` and `core/src/parse/overhead.rs:30-58` `handle_item`, for the respective `parse_macro`.
`name.unwrap()` cannot fail, see `Item`. -/
def handleConst {α : Type} (f : ConstDef → Res α) : Item → Res α
  | .mod name (some items) =>
    if name = str% "constants" then handleConsts f items else .err (str% "Unexpected module: " ++ name)
  | .mod name none => .err (str% "Unexpected module: " ++ name)
  | .macro last tokens =>
    if last = str% "parameter_types" then
      match tokens with
      | some c => f c
      | none => .err (str% "syn error")
    else .err (str% "Unexpected macro def")
  | .impl _ _ => .err (str% "Could not find weights in the file")
  | .other => .err (str% "Could not find weights in the file")

/-- The loop over the items of `mod constants`. -/
def handleConsts {α : Type} (f : ConstDef → Res α) : List Item → Res α
  | [] => .err (str% "Did not find parameter_types!")
  | i :: l => match handleConst f i with
    | .err _ => handleConsts f l
    | r => r

end

/-- `type_to_string(&def.ty, None)`: `core/src/parse/storage.rs:179-185`, `core/src/parse/overhead.rs:90-96`. -/
def typeToString : Ty → Res Str
  | .path _ segs => .ok (pathToString segs none)
  | _ => .err (str% "Unexpected type")

/-! ### Storage -/

/-- `core/src/parse/storage.rs:6-10` `enum Db`. -/
inductive Db where
  | parity
  | rocks
  deriving DecidableEq

/-- `core/src/parse/storage.rs:12-16` `struct RWs`. -/
structure RWs where
  read : SimpleTerm
  write : SimpleTerm
  deriving DecidableEq

/-- `core/src/parse/storage.rs:18-22` `struct Weights`. -/
structure StorageWeights where
  db : Db
  weights : RWs
  deriving DecidableEq

/-- `core/src/parse/storage.rs:159-176` `parse_expression`. -/
def storageExpr : Expr → Res SimpleTerm
  | .binary left op right => do
    let l ← storageExpr left
    let r ← storageExpr right
    match op with
    | .mul => .ok (.mul l r)
    | .add => .ok (.add l r)
    | .other => .err (str% "Unexpected operator")
  | .lit l => do .ok (.scalar (← litToValue l))
  | .path segs => .ok (.var (pathToString segs (some (str% "::"))))
  | _ => .err (str% "Unexpected expression storage expr")

/-- `core/src/parse/storage.rs:187-192` `member_to_string`. -/
def memberToString (m : Option Str) : Str := m.getD []

/-- `core/src/parse/storage.rs:135-157` `parse_runtime_db_weight`. -/
def parseRuntimeDbWeight (path : List Str) (fields : List (Option Str × Expr)) : Res RWs :=
  let name := pathToString path none
  if name ≠ str% "RuntimeDbWeight" then .err (str% "Unexpected struct name: " ++ name)
  else if fields.length ≠ 2 then .err (str% "Unexpected struct fields")
  else match fields.find? (fun f => memberToString f.1 == str% "read") with
    | none => .err (str% "No read field found")
    | some reads => match fields.find? (fun f => memberToString f.1 == str% "write") with
      | none => .err (str% "No write field found")
      | some writes => do
        let r ← storageExpr reads.2
        let w ← storageExpr writes.2
        .ok ⟨r, w⟩

/-- The database named by the constant, `core/src/parse/storage.rs:117-121`. -/
def dbOfName (name : Str) : Res Db :=
  if name = str% "RocksDbWeight" then .ok .rocks
  else if name = str% "ParityDbWeight" then .ok .parity
  else .err (str% "Unexpected const name: " ++ name)

/-- `core/src/parse/storage.rs:113-133` `parse_macro`. -/
def storageMacro (c : ConstDef) : Res StorageWeights := do
  let db ← dbOfName c.name
  let ty ← typeToString c.ty
  if ty ≠ str% "RuntimeDbWeight" then .err (str% "Unexpected const type: " ++ ty)
  else match c.value with
    | .struct path fields => do .ok ⟨db, ← parseRuntimeDbWeight path fields⟩
    | _ => .err (str% "Unexpected const value")

/-- `core/src/parse/storage.rs:64-72` `parse_content`. -/
def storageContent (syn : SynParser) (content : Str) : Res StorageWeights :=
  match syn content with
  | .error e => .err e
  | .ok items => firstOk (handleConst storageMacro) (str% "No DB weights found") items

/-- `core/src/parse/storage.rs:59-62` `parse_file`. -/
def storageFile (env : Env) (fs : Fs) (file : Path) : Res StorageWeights := do
  storageContent env.syn (← readFile fs file)

/-! ### Overhead -/

/-- `core/src/parse/overhead.rs:9-13` `enum Weight`. -/
inductive OverheadWeight where
  | blockExecution (t : ChromaticTerm)
  | extrinsicBase (t : ChromaticTerm)
  deriving DecidableEq

/-- `core/src/term.rs:464-479` `TryInto<SimpleTerm> for &ExprBinary`. -/
def binaryTerm (left : Expr) (op : BinOp) (right : Expr) : Res SimpleTerm := do
  let l ← parseScalar left
  let r ← parseScalar right
  match op with
  | .mul => .ok (.mul l r)
  | .add => .ok (.add l r)
  | .other => .err (str% "Unexpected operator")

/-- `core/src/parse/overhead.rs:74-80`: the weight of the constant. -/
def overheadExpr : Expr → Res ChromaticTerm
  | .binary l op r => do .ok (intoChromatic .time (← binaryTerm l op r))
  | e => parseExpression e

/-- `core/src/parse/overhead.rs:66-87` `parse_macro`. -/
def overheadMacro (c : ConstDef) : Res OverheadWeight := do
  let ty ← typeToString c.ty
  if ty ≠ str% "Weight" then .err (str% "Unexpected const type: " ++ ty)
  else do
    let w ← overheadExpr c.value
    if c.name = str% "BlockExecutionWeight" then .ok (.blockExecution w)
    else if c.name = str% "ExtrinsicBaseWeight" then .ok (.extrinsicBase w)
    else .err (str% "Unexpected const name: " ++ c.name)

/-- `core/src/parse/overhead.rs:20-28` `parse_content`. -/
def overheadContent (syn : SynParser) (content : Str) : Res OverheadWeight :=
  match syn content with
  | .error e => .err e
  | .ok items => firstOk (handleConst overheadMacro) (str% "No Overhead weights found") items

/-- `core/src/parse/overhead.rs:15-18` `parse_file`. -/
def overheadFile (env : Env) (fs : Fs) (file : Path) : Res OverheadWeight := do
  overheadContent env.syn (← readFile fs file)

/-! ### Guessing the kind of a file -/

/-- `core/src/parse/mod.rs:17-21` `enum ParsedFile`. -/
inductive ParsedFile where
  | pallet (exts : List ChromaticExtrinsic)
  | storage (w : StorageWeights)
  | overhead (w : OverheadWeight)

/-- `if let Ok(parsed) = x { return Some(f(parsed)) }` followed by `rest`; a panic is not caught. -/
def orElse {α : Type} (x : Res α) (f : α → ParsedFile) (rest : Res (Option ParsedFile)) : Res (Option ParsedFile) :=
  match x with
  | .ok a => .ok (some (f a))
  | .err _ => rest
  | .panic => .panic
  | .diverge => .diverge

/-- `core/src/parse/mod.rs:73-85` `try_parse_file`. -/
def tryParseFile (env : Env) (fs : Fs) (repo file : Path) : Res (Option ParsedFile) :=
  orElse (parseFileInRepo env fs repo file) .pallet
    (orElse (storageFile env fs file) .storage (orElse (overheadFile env fs file) .overhead (.ok none)))

end Swc
