/-
C50–C52: storage weight files, overhead weight files, and guessing the kind of a file.
-/
import Verif.Spec.ConstFile
import Verif.Props.ParseFile
import Verif.Props.Eval

namespace Swc

open Spec Term

/-! ### The traversal -/

/-- The first definition that is not refused. -/
def firstDef {α : Type} (f : ConstDef → Res α) : List ConstDef → Res α
  | [] => .err []
  | c :: l => match f c with
    | .err _ => firstDef f l
    | r => r

/-- Equality of outcomes up to the text of errors. -/
def Res.same {α : Type} : Res α → Res α → Prop
  | .err _, .err _ => True
  | a, b => a = b

theorem same_refl {α : Type} (a : Res α) : Res.same a a := by cases a <;> trivial

theorem same_ok {α : Type} {a b : Res α} (h : Res.same a b) (r : α) : a = .ok r ↔ b = .ok r := by
  cases a <;> cases b <;> simp_all [Res.same]
theorem same_panic {α : Type} {a b : Res α} (h : Res.same a b) : a = .panic ↔ b = .panic := by
  cases a <;> cases b <;> simp_all [Res.same]
theorem same_err {α : Type} {a b : Res α} (h : Res.same a b) : (∃ m, a = .err m) ↔ ∃ m, b = .err m := by
  cases a <;> cases b <;> simp_all [Res.same]

theorem firstDef_append {α : Type} (f : ConstDef → Res α) (l k : List ConstDef) :
    firstDef f (l ++ k) = match firstDef f l with | .err _ => firstDef f k | r => r := by
  induction l with
  | nil => rfl
  | cons c l ih =>
    rw [List.cons_append, firstDef, firstDef]
    cases f c with
    | err m => exact ih
    | _ => rfl

theorem firstDef_ok {α : Type} (f : ConstDef → Res α) (l : List ConstDef) (r : α) :
    firstDef f l = .ok r ↔ ∃ pre c post, l = pre ++ c :: post ∧ f c = .ok r ∧ ∀ j ∈ pre, ∃ m, f j = .err m := by
  induction l with
  | nil => simp [firstDef]
  | cons a l ih =>
    rw [firstDef]
    cases h : f a with
    | err m =>
      dsimp only
      rw [ih]
      constructor
      · rintro ⟨pre, c, post, rfl, h1, h2⟩
        refine ⟨a :: pre, c, post, rfl, h1, ?_⟩
        rintro j (_ | ⟨_, hj⟩)
        · exact ⟨m, h⟩
        · exact h2 j hj
      · rintro ⟨pre, c, post, h0, h1, h2⟩
        cases pre with
        | nil => cases h0; rw [h] at h1; cases h1
        | cons p pre => cases h0; exact ⟨pre, c, post, rfl, h1, fun j hj => h2 j (.tail _ hj)⟩
    | ok x =>
      constructor
      · intro h'; cases h'; exact ⟨[], a, l, rfl, h, by simp⟩
      · rintro ⟨pre, c, post, h0, h1, h2⟩
        cases pre with
        | nil => cases h0; rw [h] at h1; exact h1
        | cons p pre => cases h0; obtain ⟨m, hm⟩ := h2 a (.head _); rw [h] at hm; cases hm
    | panic =>
      constructor
      · intro h'; cases h'
      · rintro ⟨pre, c, post, h0, h1, h2⟩
        cases pre with
        | nil => cases h0; rw [h] at h1; cases h1
        | cons p pre => cases h0; obtain ⟨m, hm⟩ := h2 a (.head _); rw [h] at hm; cases hm
    | diverge =>
      constructor
      · intro h'; cases h'
      · rintro ⟨pre, c, post, h0, h1, h2⟩
        cases pre with
        | nil => cases h0; rw [h] at h1; cases h1
        | cons p pre => cases h0; obtain ⟨m, hm⟩ := h2 a (.head _); rw [h] at hm; cases hm

mutual

theorem handleConst_same {α : Type} (f : ConstDef → Res α) : ∀ i, Res.same (handleConst f i) (firstDef f (definitions i))
  | .mod name (some items) => by
    rw [handleConst, definitions]
    split
    · exact handleConsts_same f items
    · trivial
  | .mod name none => by rw [handleConst]; trivial
  | .macro last none => by
    rw [handleConst]
    split <;> trivial
  | .macro last (some c) => by
    rw [handleConst, definitions]
    split
    · rw [firstDef]
      cases f c <;> trivial
    · trivial
  | .impl _ _ => by rw [handleConst]; trivial
  | .other => by rw [handleConst]; trivial

theorem handleConsts_same {α : Type} (f : ConstDef → Res α) : ∀ l, Res.same (handleConsts f l) (firstDef f (definitionsIn l))
  | [] => by rw [handleConsts]; trivial
  | i :: l => by
    rw [handleConsts, definitionsIn, firstDef_append]
    have h1 := handleConst_same f i
    have h2 := handleConsts_same f l
    cases ha : handleConst f i <;> cases hb : firstDef f (definitions i) <;> rw [ha, hb] at h1 <;>
      first | exact h2 | exact h1 | cases h1

end

theorem firstOk_same {α : Type} (f : ConstDef → Res α) (msg : Str) (l : List Item) :
    Res.same (firstOk (handleConst f) msg l) (firstDef f (definitionsIn l)) := by
  induction l with
  | nil => trivial
  | cons i l ih =>
    rw [firstOk, definitionsIn, firstDef_append]
    have h1 := handleConst_same f i
    cases ha : handleConst f i <;> cases hb : firstDef f (definitions i) <;> rw [ha, hb] at h1 <;>
      first | exact ih | exact h1 | cases h1

/-! ### Storage weights -/

theorem typeToString_iff (ty : Ty) (s : Str) : typeToString ty = .ok s ↔ ∃ lead segs, ty = .path lead segs ∧ segs.flatten = s := by
  cases ty with
  | path lead segs =>
    rw [typeToString, pathToString]
    simp only [Option.getD_none, joinStr_nil, Res.ok.injEq]
    constructor
    · intro h; exact ⟨lead, segs, rfl, h⟩
    · rintro ⟨_, _, h1, h2⟩; cases h1; exact h2
  | tuple n =>
    constructor
    · intro h; cases h
    · rintro ⟨_, _, h, _⟩; cases h
  | other =>
    constructor
    · intro h; cases h
    · rintro ⟨_, _, h, _⟩; cases h

theorem dbOfName_iff (name : Str) (db : Db) :
    dbOfName name = .ok db ↔ (name = str% "RocksDbWeight" ∧ db = .rocks) ∨ (name = str% "ParityDbWeight" ∧ db = .parity) := by
  unfold dbOfName
  by_cases h1 : name = str% "RocksDbWeight"
  · subst h1; cases db <;> decide
  · by_cases h2 : name = str% "ParityDbWeight"
    · subst h2; cases db <;> decide
    · simp [h1, h2]

theorem findFields {fields : List (Option Str × Expr)} (hl : fields.length = 2) (read write : Option Str × Expr) :
    (fields.find? (fun f => memberToString f.1 == str% "read") = some read
      ∧ fields.find? (fun f => memberToString f.1 == str% "write") = some write)
    ↔ (read.1 = some (str% "read") ∧ write.1 = some (str% "write") ∧ (fields = [read, write] ∨ fields = [write, read])) := by
  have hm : ∀ (m : Option Str) (s : Str), s ≠ [] → ((memberToString m == s) = true ↔ m = some s) := by
    intro m s hs
    cases m with
    | none => simp only [memberToString, Option.getD_none, beq_iff_eq, reduceCtorEq, iff_false]; exact fun h => hs h.symm
    | some x => simp [memberToString]
  have hr : ∀ m : Option Str, (memberToString m == str% "read") = true ↔ m = some (str% "read") := fun m => hm m _ (by decide)
  have hw : ∀ m : Option Str, (memberToString m == str% "write") = true ↔ m = some (str% "write") := fun m => hm m _ (by decide)
  constructor
  · rintro ⟨h1, h2⟩
    have e1 := List.find?_some h1
    have e2 := List.find?_some h2
    rw [hr] at e1
    rw [hw] at e2
    refine ⟨e1, e2, ?_⟩
    have m1 := List.mem_of_find?_eq_some h1
    have m2 := List.mem_of_find?_eq_some h2
    have hne : read ≠ write := by rintro rfl; rw [e1] at e2; exact absurd e2 (by decide)
    match fields, hl with
    | [a, c], _ =>
      simp only [List.mem_cons, List.not_mem_nil, or_false] at m1 m2
      rcases m1 with rfl | rfl <;> rcases m2 with rfl | rfl
      · exact absurd rfl hne
      · exact .inl rfl
      · exact .inr rfl
      · exact absurd rfl hne
  · rintro ⟨e1, e2, h⟩
    have r1 : (memberToString read.1 == str% "read") = true := (hr _).2 e1
    have w1 : (memberToString write.1 == str% "write") = true := (hw _).2 e2
    have r2 : (memberToString read.1 == str% "write") = false := by rw [e1]; decide
    have w2 : (memberToString write.1 == str% "read") = false := by rw [e2]; decide
    rcases h with rfl | rfl <;> simp [List.find?, r1, r2, w1, w2]

theorem parseRuntimeDbWeight_iff (path : List Str) (fields : List (Option Str × Expr)) (rw' : RWs) :
    parseRuntimeDbWeight path fields = .ok rw' ↔ path.flatten = str% "RuntimeDbWeight" ∧ ∃ er ew,
      (fields = [(some (str% "read"), er), (some (str% "write"), ew)] ∨ fields = [(some (str% "write"), ew), (some (str% "read"), er)])
      ∧ storageExpr er = .ok rw'.read ∧ storageExpr ew = .ok rw'.write := by
  unfold parseRuntimeDbWeight
  simp only [pathToString, Option.getD_none, joinStr_nil]
  by_cases hp : path.flatten = str% "RuntimeDbWeight"
  · rw [if_neg (not_not_intro hp)]
    by_cases hl : fields.length = 2
    · rw [if_neg (not_not_intro hl)]
      constructor
      · intro h
        refine ⟨hp, ?_⟩
        split at h
        · cases h
        · rename_i reads h1
          split at h
          · cases h
          · rename_i writes h2
            obtain ⟨r, hr, h⟩ := bind_eq_ok h
            obtain ⟨w, hw, h⟩ := bind_eq_ok h
            cases h
            obtain ⟨e1, e2, e3⟩ := (findFields hl reads writes).1 ⟨h1, h2⟩
            obtain ⟨a, er⟩ := reads
            obtain ⟨c, ew⟩ := writes
            cases e1
            cases e2
            exact ⟨er, ew, e3, hr, hw⟩
      · rintro ⟨-, er, ew, h1, h2, h3⟩
        obtain ⟨f1, f2⟩ := (findFields hl (some (str% "read"), er) (some (str% "write"), ew)).2 ⟨rfl, rfl, h1⟩
        rw [f1, f2]
        dsimp only
        rw [h2, Res.bind_ok, h3]
        rfl
    · rw [if_pos hl]
      constructor
      · intro h; cases h
      · rintro ⟨-, er, ew, rfl | rfl, -⟩ <;> exact absurd rfl hl
  · rw [if_pos hp]
    constructor
    · intro h; cases h
    · intro h; exact absurd h.1 hp

theorem storageMacro_iff (c : ConstDef) (w : StorageWeights) :
    storageMacro c = .ok w ↔ ∃ read write, IsDbWeight c w.db read write
      ∧ storageExpr read = .ok w.weights.read ∧ storageExpr write = .ok w.weights.write := by
  unfold storageMacro IsDbWeight
  constructor
  · intro h
    obtain ⟨db, h1, h⟩ := bind_eq_ok h
    obtain ⟨ty, h2, h⟩ := bind_eq_ok h
    split at h
    · cases h
    · rename_i hty
      rw [not_not] at hty
      subst hty
      split at h
      · rename_i path fields hv
        obtain ⟨r, h3, h⟩ := bind_eq_ok h
        cases h
        obtain ⟨h4, er, ew, h5, h6, h7⟩ := (parseRuntimeDbWeight_iff path fields r).1 h3
        exact ⟨er, ew, ⟨(dbOfName_iff _ _).1 h1, (typeToString_iff _ _).1 h2, path, fields, hv, h4, h5⟩, h6, h7⟩
      · cases h
  · rintro ⟨er, ew, ⟨h1, h2, path, fields, hv, h4, h5⟩, h6, h7⟩
    rw [(dbOfName_iff _ _).2 h1, Res.bind_ok, (typeToString_iff _ _).2 h2, Res.bind_ok, if_neg (not_not_intro rfl), hv]
    dsimp only
    rw [(parseRuntimeDbWeight_iff path fields w.weights).2 ⟨h4, er, ew, h5, h6, h7⟩]
    rfl

/-- C50: the weights of a storage file are those of the first constant definition that is accepted; all definitions before it are refused.
A definition is accepted exactly if it has the right name, type, and the fields `read` and `write` in any order, with readable values. -/
theorem C50_content (syn : SynParser) (content : Str) (w : StorageWeights) :
    storageContent syn content = .ok w ↔ ∃ items pre c post read write, syn content = .ok items
      ∧ definitionsIn items = pre ++ c :: post
      ∧ IsDbWeight c w.db read write ∧ storageExpr read = .ok w.weights.read ∧ storageExpr write = .ok w.weights.write
      ∧ ∀ j ∈ pre, ∃ m, storageMacro j = .err m := by
  unfold storageContent
  cases hs : syn content with
  | error e =>
    constructor
    · intro h; cases h
    · rintro ⟨items, _, _, _, _, _, h, -⟩; cases h
  | ok items =>
    dsimp only
    rw [same_ok (firstOk_same _ _ _), firstDef_ok]
    constructor
    · rintro ⟨pre, c, post, h1, h2, h3⟩
      obtain ⟨er, ew, h4, h5, h6⟩ := (storageMacro_iff c w).1 h2
      exact ⟨items, pre, c, post, er, ew, rfl, h1, h4, h5, h6, h3⟩
    · rintro ⟨items', pre, c, post, er, ew, h0, h1, h4, h5, h6, h3⟩
      cases h0
      exact ⟨pre, c, post, h1, (storageMacro_iff c w).2 ⟨er, ew, h4, h5, h6⟩, h3⟩

/-! #### Values -/

theorem constantValue_eval {segs : List Str} {n : Nat} (h : constantValue segs = some n) (b : Build) :
    eval b (.var (pathToString segs (some (str% "::")))) Scope.fromSubstrate = .ok n := by
  unfold constantValue at h
  split at h
  · rename_i hs
    cases h
    rcases hs with rfl | rfl | rfl | rfl <;> cases b <;> rfl
  · cases h

/-- C50: a Rust constant expression of literals, the constants of `frame_support`, `*` and `+` is accepted, and the resulting equation
evaluates in the Substrate scope to the value of the expression (in an integer type up to u128). -/
theorem C50_value {M : Nat} (hM : M < 2 ^ 128) {e : Expr} {n : Nat} (h : constExpr M e = some n) :
    ∃ t, storageExpr e = .ok t ∧ ∀ b, eval b t Scope.fromSubstrate = .ok n := by
  fun_induction constExpr M e generalizing n with
  | case1 digits =>
    cases hr : readNat digits with
    | none => rw [hr] at h; cases h
    | some m =>
      rw [hr] at h
      simp only [Option.bind_some, upTo] at h
      split at h
      · rename_i hm
        cases h
        refine ⟨.scalar n, ?_, fun b => eval_scalar b _ n⟩
        rw [storageExpr, litToValue, parseUInt_of_readNat hr, if_pos (by rw [u128Size]; omega)]
        rfl
      · cases h
  | case2 segs => exact ⟨_, rfl, constantValue_eval h⟩
  | case3 l r ihl ihr =>
    obtain ⟨x, hx, h⟩ := Option.bind_eq_some_iff.1 h
    obtain ⟨y, hy, h⟩ := Option.bind_eq_some_iff.1 h
    obtain ⟨s, hs, es⟩ := ihl hx
    obtain ⟨t, ht, et⟩ := ihr hy
    unfold upTo at h
    split at h
    · rename_i hm
      cases h
      refine ⟨.mul s t, by rw [storageExpr, hs, Res.bind_ok, ht]; rfl, fun b => ?_⟩
      rw [eval_eq, evalWith, ← eval_eq, ← eval_eq, es, et]
      exact if_pos (by rw [u128Size]; omega)
    · cases h
  | case4 l r ihl ihr =>
    obtain ⟨x, hx, h⟩ := Option.bind_eq_some_iff.1 h
    obtain ⟨y, hy, h⟩ := Option.bind_eq_some_iff.1 h
    obtain ⟨s, hs, es⟩ := ihl hx
    obtain ⟨t, ht, et⟩ := ihr hy
    unfold upTo at h
    split at h
    · rename_i hm
      cases h
      refine ⟨.add s t, by rw [storageExpr, hs, Res.bind_ok, ht]; rfl, fun b => ?_⟩
      rw [eval_eq, evalWith, ← eval_eq, ← eval_eq, es, et]
      exact if_pos (by rw [u128Size]; omega)
    · cases h
  | case5 => cases h

/-- C50: the accepted expressions are exactly the sums and products of literals and paths (no parentheses, no casts); a literal that
is not an integer below 2^128 makes the parser panic, which `C50_content` counts as neither accepted nor refused. -/
theorem C50_accepted (e : Expr) (h : ∃ t, storageExpr e = .ok t) : SumProduct e := by
  fun_induction storageExpr e with
  | case1 l op r ihl ihr =>
    obtain ⟨t, h⟩ := h
    obtain ⟨x, hx, h⟩ := bind_eq_ok h
    obtain ⟨y, hy, h⟩ := bind_eq_ok h
    cases op with
    | mul => exact .mul (ihl ⟨x, hx⟩) (ihr ⟨y, hy⟩)
    | add => exact .add (ihl ⟨x, hx⟩) (ihr ⟨y, hy⟩)
    | other => cases h
  | case2 l => exact .lit l
  | case3 segs => exact .path segs
  | case4 => obtain ⟨t, h⟩ := h; cases h

/-- A literal satisfying `P` occurs where the two parsers can see it. -/
inductive ConstLit (P : Lit → Prop) : Expr → Prop
  | here {e : Expr} (h : HasLit P e) : ConstLit P e
  | left {l r : Expr} {op : BinOp} (h : ConstLit P l) : ConstLit P (.binary l op r)
  | right {l r : Expr} {op : BinOp} (h : ConstLit P r) : ConstLit P (.binary l op r)
  | field {path : List Str} {fields : List (Option Str × Expr)} {f : Option Str × Expr} (hf : f ∈ fields) (h : ConstLit P f.2) :
    ConstLit P (.struct path fields)

theorem storageExpr_clean {e : Expr} (h : ¬ ConstLit BadLit e) : Clean (storageExpr e) := by
  fun_induction storageExpr e with
  | case1 l op r ihl ihr =>
    refine clean_bind (ihl fun h' => h (.left h')) fun _ _ => clean_bind (ihr fun h' => h (.right h')) fun _ _ => ?_
    cases op
    · exact clean_ok _
    · exact clean_ok _
    · exact .inr ⟨_, rfl⟩
  | case2 l =>
    obtain ⟨n, hn⟩ := litToValue_clean fun h' => h (.here (.lit h'))
    rw [hn]; exact clean_ok _
  | case3 => exact clean_ok _
  | case4 => exact .inr ⟨_, rfl⟩

theorem typeToString_clean (ty : Ty) : Clean (typeToString ty) := by
  unfold typeToString
  split
  · exact clean_ok _
  · exact .inr ⟨_, rfl⟩

theorem storageMacro_clean {c : ConstDef} (h : ¬ ConstLit BadLit c.value) : Clean (storageMacro c) := by
  unfold storageMacro
  refine clean_bind ?_ fun _ _ => clean_bind (typeToString_clean _) fun _ _ => ?_
  · unfold dbOfName
    split
    · exact clean_ok _
    · split
      · exact clean_ok _
      · exact .inr ⟨_, rfl⟩
  · split
    · exact .inr ⟨_, rfl⟩
    · split
      · rename_i path fields hv
        refine clean_bind ?_ fun _ _ => clean_ok _
        unfold parseRuntimeDbWeight
        dsimp only
        split
        · exact .inr ⟨_, rfl⟩
        · split
          · exact .inr ⟨_, rfl⟩
          · split
            · exact .inr ⟨_, rfl⟩
            · rename_i reads h1
              split
              · exact .inr ⟨_, rfl⟩
              · rename_i writes h2
                refine clean_bind (storageExpr_clean fun h' => h ?_) fun _ _ => clean_bind (storageExpr_clean fun h' => h ?_) fun _ _ => clean_ok _
                · rw [hv]; exact .field (List.mem_of_find?_eq_some h1) h'
                · rw [hv]; exact .field (List.mem_of_find?_eq_some h2) h'
      · exact .inr ⟨_, rfl⟩

theorem clean_not_ok {α : Type} {r : Res α} (h : Clean r) : (∃ m, r = .err m) ↔ ∀ a, r ≠ .ok a := by
  rcases h with ⟨a, rfl⟩ | ⟨m, rfl⟩
  · constructor
    · rintro ⟨m, h⟩; cases h
    · intro h; exact absurd rfl (h a)
  · constructor
    · intro _ a h; cases h
    · intro _; exact ⟨m, rfl⟩

/-- C50: for files whose literals are integers below 2^128: the first well-formed definition wins. -/
theorem C50_first_well_formed (syn : SynParser) (content : Str) (items : List Item) (hs : syn content = .ok items)
    (hl : ∀ c ∈ definitionsIn items, ¬ ConstLit BadLit c.value) (w : StorageWeights) :
    storageContent syn content = .ok w ↔ ∃ pre c post read write, definitionsIn items = pre ++ c :: post
      ∧ IsDbWeight c w.db read write ∧ storageExpr read = .ok w.weights.read ∧ storageExpr write = .ok w.weights.write
      ∧ ∀ j ∈ pre, ¬ ∃ db r w tr tw, IsDbWeight j db r w ∧ storageExpr r = .ok tr ∧ storageExpr w = .ok tw := by
  rw [C50_content]
  constructor
  · rintro ⟨items', pre, c, post, read, write, h0, h1, h2, h3, h4, h5⟩
    rw [hs] at h0
    cases h0
    refine ⟨pre, c, post, read, write, h1, h2, h3, h4, fun j hj ⟨db, r, w', tr, tw, hd, hr, hw⟩ => ?_⟩
    obtain ⟨m, hm⟩ := h5 j hj
    rw [(storageMacro_iff j ⟨db, tr, tw⟩).2 ⟨r, w', hd, hr, hw⟩] at hm
    cases hm
  · rintro ⟨pre, c, post, read, write, h1, h2, h3, h4, h5⟩
    refine ⟨items, pre, c, post, read, write, hs, h1, h2, h3, h4, fun j hj => ?_⟩
    rw [clean_not_ok (storageMacro_clean (hl j (by rw [h1]; simp [hj])))]
    intro a ha
    obtain ⟨r, w', hd, hr, hw⟩ := (storageMacro_iff j a).1 ha
    exact h5 j hj ⟨_, r, w', _, _, hd, hr, hw⟩

/-- C50: no panic if the literals are integers below 2^128. -/
theorem C50_no_panic (syn : SynParser) (content : Str)
    (hl : ∀ items, syn content = .ok items → ∀ c ∈ definitionsIn items, ¬ ConstLit BadLit c.value) :
    Clean (storageContent syn content) := by
  unfold storageContent
  cases hs : syn content with
  | error e => exact .inr ⟨_, rfl⟩
  | ok items =>
    dsimp only
    have h := hl items hs
    have key : ∀ l : List ConstDef, (∀ c ∈ l, ¬ ConstLit BadLit c.value) → Clean (firstDef storageMacro l) := by
      intro l hl
      induction l with
      | nil => exact .inr ⟨_, rfl⟩
      | cons c l ih =>
        rw [firstDef]
        rcases storageMacro_clean (hl c (.head _)) with ⟨a, ha⟩ | ⟨m, ha⟩
        · rw [ha]; exact clean_ok _
        · rw [ha]; exact ih fun c hc => hl c (.tail _ hc)
    rcases key _ h with ⟨a, ha⟩ | hm
    · exact .inl ⟨a, (same_ok (firstOk_same _ _ _) a).2 ha⟩
    · exact .inr ((same_err (firstOk_same _ _ _)).2 hm)

/-- The file of the Substrate template: `mod constants { parameter_types! { pub const RocksDbWeight: … { write: …, read: … } } }`. -/
def exStorage : List Item :=
  [.other,
    .mod (str% "constants") (some [.other, .macro (str% "parameter_types") none,
      .macro (str% "parameter_types") (some ⟨str% "RocksDbWeight", .path false [str% "RuntimeDbWeight"],
        .struct [str% "RuntimeDbWeight"]
          [(some (str% "write"), .binary (.lit (.int (str% "100000"))) .mul (.path [str% "constants", str% "WEIGHT_PER_NANOS"])),
            (some (str% "read"), .binary (.lit (.int (str% "25000"))) .mul (.path [str% "constants", str% "WEIGHT_PER_NANOS"]))]⟩)])]

example : storageContent (fun _ => .ok exStorage) [] = .ok ⟨.rocks,
    .mul (.scalar 25000) (.var (str% "constants::WEIGHT_PER_NANOS")), .mul (.scalar 100000) (.var (str% "constants::WEIGHT_PER_NANOS"))⟩ := by
  decide +kernel
/-- 25 µs per read, 1000 weight units per nanosecond. -/
example : constExpr (2 ^ 64 - 1) (.binary (.lit (.int (str% "25000"))) .mul (.path [str% "constants", str% "WEIGHT_PER_NANOS"]))
    = some 25000000 := by decide +kernel
/-- A parenthesis is not accepted. -/
example : storageExpr (.paren (.lit (.int (str% "25000")))) = .err (str% "Unexpected expression storage expr") := rfl
/-- A float makes the parser panic. -/
example : storageExpr (.lit .other) = .panic := rfl

/-! ### Overhead weights -/

theorem overheadMacro_iff (c : ConstDef) (w : OverheadWeight) :
    overheadMacro c = .ok w ↔ ∃ t, overheadExpr c.value = .ok t ∧ IsOverhead c t w := by
  unfold overheadMacro IsOverhead
  constructor
  · intro h
    obtain ⟨ty, h1, h⟩ := bind_eq_ok h
    split at h
    · cases h
    · rename_i hty
      rw [not_not] at hty
      subst hty
      obtain ⟨t, h2, h⟩ := bind_eq_ok h
      refine ⟨t, h2, ?_, (typeToString_iff _ _).1 h1⟩
      split at h
      · rename_i hn; cases h; exact .inl ⟨hn, rfl⟩
      · split at h
        · rename_i hn; cases h; exact .inr ⟨hn, rfl⟩
        · cases h
  · rintro ⟨t, h1, h2, h3⟩
    rw [(typeToString_iff _ _).2 h3, Res.bind_ok, if_neg (not_not_intro rfl), h1, Res.bind_ok]
    rcases h2 with ⟨h, rfl⟩ | ⟨h, rfl⟩
    · rw [if_pos h]
    · rw [h]; rfl

/-- C51: the weight of an overhead file is that of the first constant definition that is accepted; all definitions before it are refused. -/
theorem C51_content (syn : SynParser) (content : Str) (w : OverheadWeight) :
    overheadContent syn content = .ok w ↔ ∃ items pre c post t, syn content = .ok items
      ∧ definitionsIn items = pre ++ c :: post ∧ overheadExpr c.value = .ok t ∧ IsOverhead c t w
      ∧ ∀ j ∈ pre, ∃ m, overheadMacro j = .err m := by
  unfold overheadContent
  cases hs : syn content with
  | error e =>
    constructor
    · intro h; cases h
    · rintro ⟨items, _, _, _, _, h, -⟩; cases h
  | ok items =>
    dsimp only
    rw [same_ok (firstOk_same _ _ _), firstDef_ok]
    constructor
    · rintro ⟨pre, c, post, h1, h2, h3⟩
      obtain ⟨t, h4, h5⟩ := (overheadMacro_iff c w).1 h2
      exact ⟨items, pre, c, post, t, rfl, h1, h4, h5, h3⟩
    · rintro ⟨items', pre, c, post, t, h0, h1, h4, h5, h3⟩
      cases h0
      exact ⟨pre, c, post, h1, (overheadMacro_iff c w).2 ⟨t, h4, h5⟩, h3⟩

theorem overheadMacro_clean {c : ConstDef} (h : ¬ ConstLit BadLit c.value) : Clean (overheadMacro c) := by
  unfold overheadMacro
  refine clean_bind (typeToString_clean _) fun _ _ => ?_
  split
  · exact .inr ⟨_, rfl⟩
  · refine clean_bind ?_ fun _ _ => ?_
    · unfold overheadExpr
      split
      · rename_i l op r hv
        rw [hv] at h
        refine clean_bind ?_ fun _ _ => clean_ok _
        unfold binaryTerm
        refine clean_bind (parseScalar_clean fun h' => h (.left (.here h'))) fun _ _ =>
          clean_bind (parseScalar_clean fun h' => h (.right (.here h'))) fun _ _ => ?_
        cases op
        · exact clean_ok _
        · exact clean_ok _
        · exact .inr ⟨_, rfl⟩
      · exact parseExpression_clean fun h' => h (.here h')
    · repeat' split
      all_goals first | exact clean_ok _ | exact .inr ⟨_, rfl⟩

/-- C51: for files whose literals are integers below 2^128: the first well-formed definition wins. -/
theorem C51_first_well_formed (syn : SynParser) (content : Str) (items : List Item) (hs : syn content = .ok items)
    (hl : ∀ c ∈ definitionsIn items, ¬ ConstLit BadLit c.value) (w : OverheadWeight) :
    overheadContent syn content = .ok w ↔ ∃ pre c post t, definitionsIn items = pre ++ c :: post
      ∧ overheadExpr c.value = .ok t ∧ IsOverhead c t w
      ∧ ∀ j ∈ pre, ¬ ∃ t w, overheadExpr j.value = .ok t ∧ IsOverhead j t w := by
  rw [C51_content]
  constructor
  · rintro ⟨items', pre, c, post, t, h0, h1, h2, h3, h5⟩
    rw [hs] at h0
    cases h0
    refine ⟨pre, c, post, t, h1, h2, h3, fun j hj ⟨t', w', h6, h7⟩ => ?_⟩
    obtain ⟨m, hm⟩ := h5 j hj
    rw [(overheadMacro_iff j w').2 ⟨t', h6, h7⟩] at hm
    cases hm
  · rintro ⟨pre, c, post, t, h1, h2, h3, h5⟩
    refine ⟨items, pre, c, post, t, hs, h1, h2, h3, fun j hj => ?_⟩
    rw [clean_not_ok (overheadMacro_clean (hl j (by rw [h1]; simp [hj])))]
    intro a ha
    obtain ⟨t', h6, h7⟩ := (overheadMacro_iff j a).1 ha
    exact h5 j hj ⟨t', a, h6, h7⟩

/-- C51: a product or sum of numbers is worth, in the time dimension, the product or sum of their values. -/
theorem C51_binary_value {rt : Runtime} {l r : Expr} {op : BinOp} {x y : Nat} {t : ChromaticTerm} (hx : num exact rt l = some x)
    (hy : num exact rt r = some y) (ht : overheadExpr (.binary l op r) = .ok t) :
    (op = .mul ∧ cvalue .time (rt.env .time) t = x * y) ∨ (op = .add ∧ cvalue .time (rt.env .time) t = x + y) := by
  rw [overheadExpr, binaryTerm] at ht
  obtain ⟨s, hs, ht⟩ := bind_eq_ok ht
  cases ht
  obtain ⟨a, ha, hs⟩ := bind_eq_ok hs
  obtain ⟨c, hc, hs⟩ := bind_eq_ok hs
  rw [C11_into_chromatic_same]
  have h1 := parseScalar_num hx ha (agrees_env rt .time)
  have h2 := parseScalar_num hy hc (agrees_env rt .time)
  cases op with
  | mul => cases hs; exact .inl ⟨rfl, by rw [denote, h1, h2]⟩
  | add => cases hs; exact .inr ⟨rfl, by rw [denote, h1, h2]⟩
  | other => cases hs

/-- C51: such a product has no proof size if one factor is a literal (as in `5_481_991 * WEIGHT_PER_NANOS`). -/
theorem C51_binary_proof {rt : Runtime} {l r : Expr} {x y : Nat} {t : ChromaticTerm} (hx : num exact rt l = some x)
    (hy : num exact rt r = some y) (ha : Anchor l ∨ Anchor r) (ht : overheadExpr (.binary l .mul r) = .ok t) :
    cvalue .proof (rt.env .proof) t = 0 := by
  rw [overheadExpr, binaryTerm] at ht
  obtain ⟨s, hs, ht⟩ := bind_eq_ok ht
  cases ht
  obtain ⟨a, ha', hs⟩ := bind_eq_ok hs
  obtain ⟨c, hc, hs⟩ := bind_eq_ok hs
  cases hs
  rw [intoChromatic, cvalue]
  rcases ha with h | h
  · have := (C11_into_chromatic_other .time a).2 (anchored_num hx ha' h) (rt.env .proof)
    rw [other] at this
    rw [this, Nat.zero_mul]
  · have := (C11_into_chromatic_other .time c).2 (anchored_num hy hc h) (rt.env .proof)
    rw [other] at this
    rw [this, Nat.mul_zero]

/-- C51: a two-dimensional weight expression has the value that the runtime computes, in both dimensions. -/
theorem C51_weight_value {rt : Runtime} {e : Expr} {w : Weight} {t : ChromaticTerm} (hw : weight exact rt e = some w)
    (ha : Anchored2 e) (ht : overheadExpr e = .ok t) (d : Dimension) : cvalue d (rt.env d) t = coord d w := by
  unfold overheadExpr at ht
  split at ht
  · cases hw
  · exact parseExpression_weight hw ha ht d

theorem lit_ok {digits : Str} {n : Nat} (h : readNat digits = some n) (hn : n < 2 ^ 128) : litToValue (.int digits) = .ok n := by
  rw [litToValue, parseUInt_of_readNat h, if_pos (by exact hn)]
  rfl

/-- C51: the old template, `LITERAL * WEIGHT_PER_NANOS`, is accepted; in the Substrate scope it is worth the product, and no proof size. -/
theorem C51_old_template {digits : Str} {n k : Nat} {segs : List Str} (h : readNat digits = some n) (hk : constantValue segs = some k)
    (hn : n * k < 2 ^ 64) : ∃ t, overheadExpr (.binary (.lit (.int digits)) .mul (.path segs)) = .ok t
      ∧ ∀ b, ∃ st sp, simplify .time t = .ok st ∧ simplify .proof t = .ok sp
        ∧ eval b st Scope.fromSubstrate = .ok (n * k) ∧ eval b sp Scope.fromSubstrate = .ok 0 := by
  have hk1 : k = 1000 := by
    unfold constantValue at hk
    split at hk <;> cases hk
    rfl
  have hn' : n < 2 ^ 128 := by subst hk1; omega
  refine ⟨.mul (.value ⟨n, 0⟩) (.var (pathToString segs (some (str% "::")))), ?_, fun b => ⟨_, _, C09_simplify_total _ _, C09_simplify_total _ _, ?_, ?_⟩⟩
  · rw [overheadExpr, binaryTerm, parseScalar, lit_ok h hn']
    rfl
  · rw [eval_eq, project, project, project, evalWith, ← eval_eq, ← eval_eq, constantValue_eval hk]
    exact if_pos (show n * k < u128Size by rw [u128Size]; omega)
  · rw [eval_eq, project, project, project, evalWith, ← eval_eq, ← eval_eq, constantValue_eval hk]
    have : (0 : Nat) * k < u128Size := by rw [Nat.zero_mul]; decide
    refine (if_pos this).trans ?_
    rw [Nat.zero_mul]

/-- C51: the current template, `Weight::from_parts(WEIGHT_REF_TIME_PER_NANOS.saturating_mul(LITERAL), LITERAL)`, is accepted; in the
Substrate scope it is worth the product, and the given proof size. -/
theorem C51_new_template {digits pdigits : Str} {n k p : Nat} {fn segs : List Str} {tr tr' : Bool} (hf : isFn (str% "from_parts") fn = true)
    (h : readNat digits = some n) (hp : readNat pdigits = some p) (hk : constantValue segs = some k) (hn : n * k < 2 ^ 64) (hp' : p < 2 ^ 64) :
    ∃ t, overheadExpr (.call (.path fn)
        [.methodCall (.path segs) (str% "saturating_mul") [.lit (.int digits)] tr, .lit (.int pdigits)] tr') = .ok t
      ∧ ∀ b, ∃ st sp, simplify .time t = .ok st ∧ simplify .proof t = .ok sp
        ∧ eval b st Scope.fromSubstrate = .ok (n * k) ∧ eval b sp Scope.fromSubstrate = .ok p := by
  have hk1 : k = 1000 := by
    unfold constantValue at hk
    split at hk <;> cases hk
    rfl
  have hn' : n < 2 ^ 128 := by subst hk1; omega
  have hp'' : p < 2 ^ 128 := by omega
  have hadd : ∀ (b : Build) (x y : Nat), x + y < 2 ^ 128 → addU128 b x y = .ok (x + y) := fun b x y h => if_pos (by exact h)
  have hmul : ∀ (b : Build) (x y : Nat), x * y < 2 ^ 128 → mulU128 b x y = .ok (x * y) := fun b x y h => if_pos (by exact h)
  refine ⟨.add (.mul (.var (pathToString segs (some (str% "::")))) (.value ⟨n, 0⟩)) (.value ⟨0, p⟩), ?_,
    fun b => ⟨_, _, C09_simplify_total _ _, C09_simplify_total _ _, ?_, ?_⟩⟩
  · rw [overheadExpr]
    · rw [pe_fromParts hf, ps_mul, parseScalar, parseScalar, parseScalar, lit_ok h hn', lit_ok hp hp'']
      rfl
    · intro l op r h; cases h
  all_goals
    have hc := constantValue_eval hk b
    rw [eval_eq, evalWith] at hc
    rw [eval_eq]
    simp only [project, evalWith, hc, Res.bind_ok]
  · rw [hmul b k n (by rw [Nat.mul_comm]; omega), Res.bind_ok, hadd b _ _ (by rw [Nat.mul_comm]; show n * k + 0 < _; omega)]
    simp [Nat.mul_comm]
  · rw [hmul b k 0 (by simp), Res.bind_ok, hadd b _ _ (by simp; omega)]
    simp

/-- `parameter_types! { pub const BlockExecutionWeight: Weight = 5_481_991 * WEIGHT_PER_NANOS; }` -/
example : overheadContent (fun _ => .ok [.macro (str% "parameter_types") (some ⟨str% "BlockExecutionWeight", .path false [str% "Weight"],
    .binary (.lit (.int (str% "5481991"))) .mul (.path [str% "WEIGHT_PER_NANOS"])⟩)]) []
    = .ok (.blockExecution (.mul (.value ⟨5481991, 0⟩) (.var (str% "WEIGHT_PER_NANOS")))) := by decide +kernel
example : readNat (str% "5481991") = some 5481991 ∧ constantValue [str% "WEIGHT_PER_NANOS"] = some 1000 ∧ 5481991 * 1000 < 2 ^ 64 := by
  decide +kernel
/-- A weight without a proof part given as a single function call: accepted; a bare literal is not. -/
example : overheadExpr (.lit (.int (str% "5"))) = .err (str% "Unexpected expression in pallet expr: …") := rfl

/-! ### C52 -/

/-- C52: the outcome of guessing, case by case. -/
theorem C52_priority (env : Env) (fs : Fs) (repo file : Path) :
    (∀ e, parseFileInRepo env fs repo file = .ok e → tryParseFile env fs repo file = .ok (some (.pallet e)))
    ∧ (∀ m w, parseFileInRepo env fs repo file = .err m → storageFile env fs file = .ok w →
      tryParseFile env fs repo file = .ok (some (.storage w)))
    ∧ (∀ m m' w, parseFileInRepo env fs repo file = .err m → storageFile env fs file = .err m' → overheadFile env fs file = .ok w →
      tryParseFile env fs repo file = .ok (some (.overhead w)))
    ∧ (∀ m m' m'', parseFileInRepo env fs repo file = .err m → storageFile env fs file = .err m' → overheadFile env fs file = .err m'' →
      tryParseFile env fs repo file = .ok none) := by
  unfold tryParseFile
  refine ⟨?_, ?_, ?_, ?_⟩
  · intro e h; rw [h]; rfl
  · intro m w h1 h2; rw [h1, h2]; rfl
  · intro m m' w h1 h2 h3; rw [h1, h2, h3]; rfl
  · intro m m' m'' h1 h2 h3; rw [h1, h2, h3]; rfl

/-- C52: guessing never fails with an error. -/
theorem C52_no_error (env : Env) (fs : Fs) (repo file : Path) (m : Str) : tryParseFile env fs repo file ≠ .err m := by
  unfold tryParseFile orElse
  repeat' split
  all_goals (intro h; cases h)

/-- C52: an unreadable file is nothing. -/
theorem C52_unreadable (env : Env) (fs : Fs) (repo file : Path) (e : Str) (h : fs file = .error e) :
    tryParseFile env fs repo file = .ok none := by
  unfold tryParseFile parseFileInRepo storageFile overheadFile readFile
  rw [h]
  rfl

/-- C52: a storage definition is never read as overhead or the other way round, so that the order of the last two does not matter for
files whose literals are integers below 2^128 and which define only one constant. -/
theorem C52_disjoint (c : ConstDef) (w : StorageWeights) (v : OverheadWeight) : ¬ (storageMacro c = .ok w ∧ overheadMacro c = .ok v) := by
  rintro ⟨h1, h2⟩
  obtain ⟨_, _, ⟨hn, -⟩, -⟩ := (storageMacro_iff c w).1 h1
  obtain ⟨_, -, hm, -⟩ := (overheadMacro_iff c v).1 h2
  rcases hn with ⟨hn, -⟩ | ⟨hn, -⟩ <;> rcases hm with ⟨hm, -⟩ | ⟨hm, -⟩ <;> rw [hn] at hm <;> exact absurd hm (by decide)

/-- An overhead file: refused by the first two parsers. -/
def exOverheadEnv : Env :=
  ⟨fun _ => .ok [.macro (str% "parameter_types") (some ⟨str% "ExtrinsicBaseWeight", .path false [str% "Weight"],
    .binary (.lit (.int (str% "85212"))) .mul (.path [str% "WEIGHT_PER_NANOS"])⟩)], asciiClass⟩
example : tryParseFile exOverheadEnv (fun _ => .ok []) [] [.normal (str% "extrinsic_weights.rs")]
    = .ok (some (.overhead (.extrinsicBase (.mul (.value ⟨85212, 0⟩) (.var (str% "WEIGHT_PER_NANOS")))))) := by
  rfl

end Swc
