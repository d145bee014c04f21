/-
Model of `core/src/parse/pallet.rs`: expressions, range annotations, methods, items, files.  Error messages that dump syntax trees are shortened.
-/
import Verif.Model.Debug
import Verif.Model.Syntax
import Verif.Model.Path
import Verif.Model.Compare

namespace Swc

open Term

/-- `core/src/parse/pallet.rs:526-531` `lit_to_value`: panics on other literals and on integers of 2^128 or more. -/
def litToValue : Lit → Res Nat
  | .int digits => Res.unwrap (parseUInt u128Size digits)
  | .other => .panic

/-- `core/src/parse/pallet.rs:533-538` `function_name`. -/
def functionName : Expr → Res Str
  | .path segs => .ok (pathToString segs (some (str% "::")))
  | _ => .err (str% "Unexpected function")

/-- `core/src/parse/pallet.rs:337-358` `validate_db_func`. -/
def validateDbFunc : Expr → Res Unit
  | .path segs =>
    let path := joinStr (str% "::") segs
    if path ≠ str% "T::DbWeight::get" ∧ ¬ endsWith path (str% "RocksDbWeight::get") ∧ ¬ endsWith path (str% "ParityDbWeight::get") then
      .err (str% "Unexpected DB path: " ++ path)
    else .ok ()
  | _ => .err (str% "Unexpected DB func")

/-- `core/src/parse/pallet.rs:322-334` `validate_db_call`. -/
def validateDbCall : Expr → Res Unit
  | .call func args _ => do
    validateDbFunc func
    if args.isEmpty then .ok () else .err (str% "Unexpected arguments")
  | _ => .err (str% "Unexpected DB call expression")

/-- `core/src/parse/storage.rs:26-38` `reads!`, `creads!`. -/
def readsOf {T : Type} (a : Term T) : Term T := .mul a (.var readVar)
/-- `core/src/parse/storage.rs:42-54` `writes!`, `cwrites!`. -/
def writesOf {T : Type} (a : Term T) : Term T := .mul a (.var writeVar)

/-- Error of `extract_arg`. -/
def oneArgMsg (n : Nat) : Str := str% "Expected one argument, got " ++ natToStr n

/-- `core/src/parse/pallet.rs:306-319` `parse_scalar_expression`, with `parse_scalar_method_call` (`:475-507`), `parse_scalar_call`
(`:379-393`), `parse_scalar_args` (`:521-524`) and `extract_arg` (`:509-514`) written in place. -/
def parseScalar : Expr → Res SimpleTerm
  | .cast e => parseScalar e
  | .paren e => parseScalar e
  | .lit l => do .ok (.scalar (← litToValue l))
  | .path segs => .ok (.var (pathToString segs (some (str% "::"))))
  | .methodCall recv method args trailing =>
    if method = str% "ref_time" then
      if emptyOrTrailing args trailing then parseScalar recv else .err (str% "Unexpected arguments on `ref_time`")
    else if method = str% "reads" then do
      validateDbCall recv
      match args with
      | [a] => do .ok (readsOf (← parseScalar a))
      | l => .err (oneArgMsg l.length)
    else if method = str% "writes" then do
      validateDbCall recv
      match args with
      | [a] => do .ok (writesOf (← parseScalar a))
      | l => .err (oneArgMsg l.length)
    else if method = str% "saturating_add" then do
      let l ← parseScalar recv
      match args with
      | [a] => do .ok (.add l (← parseScalar a))
      | l => .err (oneArgMsg l.length)
    else if method = str% "saturating_mul" then do
      let l ← parseScalar recv
      match args with
      | [a] => do .ok (.mul l (← parseScalar a))
      | l => .err (oneArgMsg l.length)
    else if method = str% "into" then parseScalar recv
    else .err (str% "Unknown function: " ++ method)
  | .call func args trailing => do
    let name ← functionName func
    if endsWith name (str% "::from_ref_time") then
      match args with
      | [a] => parseScalar a
      | l => .err (oneArgMsg l.length)
    else if endsWith name (str% "::zero") then
      if emptyOrTrailing args trailing then .ok (.value 0) else .err (str% "Unexpected arguments for `zero`")
    else .err (str% "Unexpected call: " ++ name)
  | .binary _ _ _ => .err (str% "Expected scalar but got: …")
  | .struct _ _ => .err (str% "Expected scalar but got: …")
  | .other => .err (str% "Expected scalar but got: …")

/-- `core/src/parse/pallet.rs:423-436` `parse_rw_args`, `parse_rw`. -/
def parseRw : Expr → Res ChromaticTerm
  | .lit l => do .ok (.scalar (← litToValue l))
  | e => do .ok (intoChromatic .time (← parseScalar e))

/-- `core/src/parse/pallet.rs:360-376` `parse_call`, with `parse_parts_args` (`:395-403`), `parse_ref_time_args` (`:405-412`) and
`parse_proof_size_args` (`:414-421`). -/
def parseCall (func : Expr) (args : List Expr) (trailing : Bool) : Res ChromaticTerm := do
  let name ← functionName func
  if endsWith name (str% "::from_ref_time") then
    match args with
    | [a] => do .ok (intoChromatic .time (← parseScalar a))
    | l => .err (oneArgMsg l.length)
  else if endsWith name (str% "::from_proof_size") then
    match args with
    | [a] => do .ok (intoChromatic .proof (← parseScalar a))
    | l => .err (oneArgMsg l.length)
  else if endsWith name (str% "::from_parts") then
    match args with
    | [a, c] => do
      let t ← parseScalar a
      let p ← parseScalar c
      .ok (spliceAdd (intoChromatic .time t) (intoChromatic .proof p))
    | l => .err (str% "Expected two arguments for `from_parts`, got " ++ natToStr l.length)
  else if endsWith name (str% "::zero") then
    if emptyOrTrailing args trailing then .ok (.value ⟨0, 0⟩) else .err (str% "Unexpected arguments for `zero`")
  else .err (str% "Unexpected call: " ++ name)

/-- `core/src/parse/pallet.rs:290-304` `parse_expression`, with `parse_method_call` (`:439-472`) and `parse_args` (`:516-519`). -/
def parseExpression : Expr → Res ChromaticTerm
  | .paren e => parseExpression e
  | .cast e => parseExpression e
  | .path segs => .ok (.var (pathToString segs (some (str% "::"))))
  | .call func args trailing => parseCall func args trailing
  | .methodCall recv method args _ =>
    if method = str% "reads" then do
      validateDbCall recv
      match args with
      | [a] => do .ok (readsOf (← parseRw a))
      | l => .err (oneArgMsg l.length)
    else if method = str% "writes" then do
      validateDbCall recv
      match args with
      | [a] => do .ok (writesOf (← parseRw a))
      | l => .err (oneArgMsg l.length)
    else if method = str% "saturating_add" then do
      let l ← parseExpression recv
      match args with
      | [a] => do .ok (.add l (← parseExpression a))
      | l => .err (oneArgMsg l.length)
    else if method = str% "saturating_mul" then do
      let l ← parseExpression recv
      match args with
      | [a] => do .ok (.mul l (← parseExpression a))
      | l => .err (oneArgMsg l.length)
    else if method = str% "into" then parseExpression recv
    else .err (str% "Unknown function: " ++ method)
  | .lit _ => .err (str% "Unexpected expression in pallet expr: …")
  | .binary _ _ _ => .err (str% "Unexpected expression in pallet expr: …")
  | .struct _ _ => .err (str% "Unexpected expression in pallet expr: …")
  | .other => .err (str% "Unexpected expression in pallet expr: …")

/-! ### Range annotations -/

/-- Character classes `\w`, `\d`, `\s` of the regex crate, and the characters that `{:?}` writes as they are.  On ASCII they are fixed, beyond it they are
Unicode tables, of which only the stated facts are used. -/
structure CharClass where
  word : Char → Bool
  digit : Char → Bool
  space : Char → Bool
  plain : Char → Bool
  word_ascii : ∀ c : Char, c.toNat < 128 → word c = (c.isAlphanum || c == '_')
  digit_ascii : ∀ c : Char, c.toNat < 128 → digit c = c.isDigit
  space_ascii : ∀ c : Char, c.toNat < 128 → space c = (c == ' ' || (9 ≤ c.toNat && c.toNat ≤ 13))
  plain_ascii : ∀ c : Char, c.toNat < 128 → plain c = (32 ≤ c.toNat && c.toNat ≤ 126)
  digit_not_space : ∀ c : Char, digit c = true → space c = false

/-- The class `[\d_]`. -/
def CharClass.num (cc : CharClass) (c : Char) : Bool := cc.digit c || c == '_'
/-- The class `[\w\s]`. -/
def CharClass.text (cc : CharClass) (c : Char) : Bool := cc.word c || cc.space c

/-- Remove a literal prefix. -/
def stripLit : Str → Str → Option Str
  | [], s => some s
  | _ :: _, [] => none
  | p :: ps, c :: s => if p = c then stripLit ps s else none

/-- `core/src/parse/pallet.rs:187-189`, the part of the regex from the first backtick on, anchored at the start of the string: the texts of
the groups `component`, `min`, `max`.  Each repetition is followed by a character outside its class, so greedy matching needs no
backtracking. -/
def matchAt (cc : CharClass) (s : Str) : Option (Str × Str × Str) := do
  let s ← stripLit (str% "`") s
  let name := s.takeWhile cc.word
  guard (name ≠ [])
  let s ← stripLit (str% "`") (s.dropWhile cc.word)
  let s ← stripLit (str% "`[") (s.dropWhile cc.text)
  let min := s.takeWhile cc.num
  guard (min ≠ [])
  let s ← stripLit (str% ",") (s.dropWhile cc.num)
  let s := s.dropWhile cc.space
  let max := s.takeWhile cc.num
  guard (max ≠ [])
  let _ ← stripLit (str% "]`") (s.dropWhile cc.num)
  some (name, min, max)

/-- `REGEX.captures(&input)`: leftmost match.  The regex starts with `[\w\s]*`, which can be empty and contains no backtick, so the
leftmost match is the one through the leftmost backtick at which the rest matches. -/
def captures (cc : CharClass) : Str → Option (Str × Str × Str)
  | [] => none
  | c :: s => match matchAt cc (c :: s) with
    | some m => some m
    | none => captures cc s

/-- Number of `u32` values. -/
def u32Size : Nat := 2 ^ 32

/-- `.replace('_', "").parse::<u32>()`; the error text of `ParseIntError` is dropped. -/
def parseBound (what s : Str) : Res Nat :=
  match parseUInt u32Size (stripUnderscore s) with
  | some n => .ok n
  | none => .err (str% "Could not parse " ++ what ++ str% " value: …")

/-- `core/src/parse/pallet.rs:184-228` `parse_component_attr`. -/
def parseComponentAttr (cc : CharClass) : Attr → Res (Option (Str × ComponentRange))
  | .nameValue path tokens =>
    if pathToString path none ≠ str% "doc" then .ok none
    else match captures cc tokens with
      | none => .ok none
      | some (name, min, max) => do
        let lo ← parseBound (str% "min") min
        let hi ← parseBound (str% "max") max
        if lo > hi then .err (str% "Min value is greater than max value") else .ok (some (name, ⟨lo, hi⟩))
  | .other => .ok none

/-- The loop of `core/src/parse/pallet.rs:231-242`: later entries replace earlier ones of the same (underscore-free) name. -/
def collectRanges (cc : CharClass) : BMap ComponentRange → List Attr → Res (BMap ComponentRange)
  | acc, [] => .ok acc
  | acc, a :: l => do
    match ← parseComponentAttr cc a with
    | some (name, r) => collectRanges cc (BMap.insert (stripUnderscore name) r acc) l
    | none => collectRanges cc acc l

/-- `core/src/parse/pallet.rs:230-249` `parse_component_attrs`.  The `HashMap` is kept as a sorted association list. -/
def parseComponentAttrs (cc : CharClass) (attrs : List Attr) : Res (Option ComponentRanges) := do
  let m ← collectRanges cc [] attrs
  .ok (if m.isEmpty then none else some m)

/-! ### Methods, items, files -/

/-- `core/src/parse/pallet.rs:275-279`: two-dimensional parsing, with the one-dimensional parser as fall-back. -/
def parseBody (e : Expr) : Res ChromaticTerm :=
  match parseExpression e with
  | .err _ => do .ok (intoChromatic .time (← parseScalar e))
  | r => r

/-- `core/src/parse/pallet.rs:256-267`: the return type must end with `Weight`. -/
def checkOutput (name : Str) : Option Ty → Res Unit
  | some (.path _ segs) =>
    if endsWith (segs.getLast?.getD []) (str% "Weight") then .ok () else .err (str% "Skipped fn: " ++ name ++ str% " not a weight")
  | some _ => .err (str% "Skipped fn: " ++ name ++ str% " not a weight")
  | none => .err (str% "Skipped fn: method return type")

/-- `core/src/parse/pallet.rs:268-274`: the only statement; anything but an expression is `unreachable!`. -/
def onlyExpr : List Stmt → Res Expr
  | [.expr e] => .ok e
  | [.other] => .panic
  | _ => .err (str% "There must be only one statement per weight function")

/-- `core/src/parse/pallet.rs:251-288` `handle_method`. -/
def handleMethod (cc : CharClass) (f : ImplFn) : Res (Str × ChromaticTerm × Option ComponentRanges) := do
  checkOutput f.name f.output
  let e ← onlyExpr f.stmts
  let w ← parseBody e
  let r ← parseComponentAttrs cc f.attrs
  .ok (f.name, w, r)

/-- `core/src/parse/pallet.rs:124-152`: which `impl` blocks are considered. -/
def checkSelfTy : Ty → Res Unit
  | .tuple n => if n ≠ 0 then .err (str% "Skipped ()") else .ok ()
  | .path leading segs =>
    if leading then .err (str% "Skipped fn: impl leading color")
    else if segs.length ≠ 1 then .err (str% "Skipped fn: impl path segment len")
    else match segs.getLast? with
      | some name =>
        if name ≠ str% "WeightInfo" ∧ name ≠ str% "SubstrateWeight" then .err (str% "Skipped fn: impl name last") else .ok ()
      | none => .err (str% "Skipped fn: impl name segments")
  | .other => .err (str% "Skipped fn: impl type")

/-- The loop of `core/src/parse/pallet.rs:155-166`. -/
def handleMethods (cc : CharClass) (pallet : Str) : List ImplItem → Res (List ChromaticExtrinsic)
  | [] => .ok []
  | .other :: l => handleMethods cc pallet l
  | .fn f :: l => do
    let (name, term, ranges) ← handleMethod cc f
    let rest ← handleMethods cc pallet l
    .ok (⟨name, pallet, term, ranges⟩ :: rest)

/-- `core/src/parse/pallet.rs:121-175` `handle_item`. -/
def handleItem (cc : CharClass) (pallet : Str) : Item → Res (List ChromaticExtrinsic)
  | .impl ty items => do
    checkSelfTy ty
    let weights ← handleMethods cc pallet items
    if weights.isEmpty then .err (str% "No weight functions found in trait impl") else .ok weights
  | _ => .err (str% "No weight trait impl found")

/-- The loop `for item in ast.items { if let Ok(w) = f(&item) { return Ok(w) } } Err(msg)` of the three parsers. -/
def firstOk {α : Type} (f : Item → Res α) (msg : Str) : List Item → Res α
  | [] => .err msg
  | i :: l => match f i with
    | .err _ => firstOk f msg l
    | r => r

/-- `core/src/parse/pallet.rs:109-119` `parse_content`. -/
def parseContent (syn : SynParser) (cc : CharClass) (pallet content : Str) : Res (List ChromaticExtrinsic) :=
  match syn content with
  | .error e => .err (str% "syn refused to parse content: " ++ debugStr cc.plain content ++ str% ": " ++ e)
  | .ok items => firstOk (handleItem cc pallet) (str% "Could not find a weight implementation in the passed file") items

/-- The file system: content of a file, or an I/O error. -/
abbrev Fs := Path → Except Str Str

/-- `core/src/parse/mod.rs:87-97` `read_file`. -/
def readFile (fs : Fs) (p : Path) : Res Str :=
  match fs p with
  | .ok c => .ok c
  | .error e => .err (p.display ++ str% ": " ++ e)

/-- `.map_err(|e| format!("{}: {}", file.display(), e))` -/
def withFile {α : Type} (p : Path) : Res α → Res α
  | .err e => .err (p.display ++ str% ": " ++ e)
  | r => r

/-- Everything the parsers depend on besides the code. -/
structure Env where
  syn : SynParser
  cc : CharClass

/-- `core/src/parse/pallet.rs:61-65` `parse_file_in_repo`. -/
def parseFileInRepo (env : Env) (fs : Fs) (repo file : Path) : Res (List ChromaticExtrinsic) := do
  let content ← readFile fs file
  let name ← PathStripping.repoRelative.strip repo file
  withFile file (parseContent env.syn env.cc name content)

/-- `core/src/parse/pallet.rs:67-71` `parse_file`. -/
def parseFile (env : Env) (fs : Fs) (file : Path) : Res (List ChromaticExtrinsic) := do
  let content ← readFile fs file
  let name ← PathStripping.fileName.strip [.cur] file
  withFile file (parseContent env.syn env.cc name content)

/-- The loop of `parse_files` and `parse_files_in_repo`. -/
def parseAll (f : Path → Res (List ChromaticExtrinsic)) : List Path → Res (List ChromaticExtrinsic)
  | [] => .ok []
  | p :: l => do
    let a ← f p
    let r ← parseAll f l
    .ok (a ++ r)

/-- The loop of `try_parse_files` and `try_parse_files_in_repo`: errors are skipped (panics are not). -/
def tryParseAll (f : Path → Res (List ChromaticExtrinsic)) : List Path → Res (List ChromaticExtrinsic)
  | [] => .ok []
  | p :: l => do
    let a ← match f p with
      | .err _ => Res.ok []
      | r => r
    let r ← tryParseAll f l
    .ok (a ++ r)

/-- `core/src/parse/pallet.rs:73-79` `parse_files_in_repo`. -/
def parseFilesInRepo (env : Env) (fs : Fs) (repo : Path) (paths : List Path) : Res (List ChromaticExtrinsic) :=
  parseAll (parseFileInRepo env fs repo) paths

/-- `core/src/parse/pallet.rs:81-87` `parse_files`. -/
def parseFiles (env : Env) (fs : Fs) (paths : List Path) : Res (List ChromaticExtrinsic) := parseAll (parseFile env fs) paths

/-- `core/src/parse/pallet.rs:89-97` `try_parse_files_in_repo`. -/
def tryParseFilesInRepo (env : Env) (fs : Fs) (repo : Path) (paths : List Path) : Res (List ChromaticExtrinsic) :=
  tryParseAll (parseFileInRepo env fs repo) paths

/-- `core/src/parse/pallet.rs:99-107` `try_parse_files`. -/
def tryParseFiles (env : Env) (fs : Fs) (paths : List Path) : Res (List ChromaticExtrinsic) := tryParseAll (parseFile env fs) paths

end Swc
