/-
C110: exactly which constants are understood, which crash the tool, and as what a file counts.
-/
import Verif.Spec.Constants
import Verif.Props.Language
import Verif.Props.ParseStorage

namespace Swc

open Spec Term

/-! ### Storage -/

/-- C110: exactly which expressions are understood as costs of the database. -/
theorem C110_sum (e : Expr) (t : SimpleTerm) : storageExpr e = .ok t ↔ ReadsSum e t := by
  constructor
  · intro h
    fun_induction storageExpr e generalizing t with
    | case1 l op r ihl ihr =>
      obtain ⟨x, hx, h⟩ := bind_eq_ok h
      obtain ⟨y, hy, h⟩ := bind_eq_ok h
      cases op with
      | mul => cases h; exact .mul (ihl _ hx) (ihr _ hy)
      | add => cases h; exact .add (ihl _ hx) (ihr _ hy)
      | other => cases h
    | case2 l =>
      obtain ⟨n, hn, h⟩ := bind_eq_ok h
      cases h
      exact .lit ((litToValue_iff l n).1 hn)
    | case3 segs =>
      cases h
      exact .name segs
    | case4 => cases h
  · intro h
    induction h with
    | lit h => rw [storageExpr, (litToValue_iff _ _).2 h]; rfl
    | name segs => rfl
    | mul _ _ h1 h2 => rw [storageExpr, h1, Res.bind_ok, h2]; rfl
    | add _ _ h1 h2 => rw [storageExpr, h1, Res.bind_ok, h2]; rfl

/-- C110: exactly which ones crash the tool. -/
theorem C110_sum_fatal (e : Expr) : storageExpr e = .panic ↔ FatalSum e := by
  constructor
  · intro h
    fun_induction storageExpr e with
    | case1 l op r ihl ihr =>
      rcases bind_eq_panic.1 h with h | ⟨x, hx, h⟩
      · exact .left op (ihl h)
      rcases bind_eq_panic.1 h with h | ⟨y, hy, h⟩
      · exact .right op ((C110_sum _ _).1 hx) (ihr h)
      · cases op <;> cases h
    | case2 l =>
      rcases bind_eq_panic.1 h with h | ⟨n, hn, h⟩
      · exact .lit ((litToValue_panic l).1 h)
      · cases h
    | case3 segs => cases h
    | case4 => cases h
  · intro h
    induction h with
    | lit h => rw [storageExpr, (litToValue_panic _).2 h]; rfl
    | left op _ ih => rw [storageExpr, ih]; rfl
    | right op h1 _ ih => rw [storageExpr, (C110_sum _ _).2 h1, Res.bind_ok, ih]; rfl

theorem storageExpr_diverge (e : Expr) : storageExpr e ≠ .diverge := by
  fun_induction storageExpr e with
  | case1 l op r ihl ihr => exact diverge_bind ihl fun _ => diverge_bind ihr fun _ => by cases op <;> exact fun h => nomatch h
  | case2 l => exact diverge_bind (litToValue_diverge l) fun _ h => nomatch h
  | case3 segs => exact fun h => nomatch h
  | case4 => exact fun h => nomatch h

theorem dbOfName_clean (name : Str) : Clean (dbOfName name) := by
  unfold dbOfName
  split
  · exact .inl ⟨_, rfl⟩
  · split
    · exact .inl ⟨_, rfl⟩
    · exact .inr ⟨_, rfl⟩

theorem parseRuntimeDbWeight_panic (path : List Str) (fields : List (Option Str × Expr)) :
    parseRuntimeDbWeight path fields = .panic ↔ path.flatten = str% "RuntimeDbWeight" ∧ ∃ er ew,
      (fields = [(some (str% "read"), er), (some (str% "write"), ew)] ∨ fields = [(some (str% "write"), ew), (some (str% "read"), er)])
      ∧ (FatalSum er ∨ (∃ t, ReadsSum er t) ∧ FatalSum ew) := by
  unfold parseRuntimeDbWeight
  simp only [pathToString, Option.getD_none, joinStr_nil]
  by_cases hp : path.flatten = str% "RuntimeDbWeight"
  · rw [if_neg (not_not_intro hp)]
    by_cases hl : fields.length = 2
    · rw [if_neg (not_not_intro hl)]
      constructor
      · intro h
        refine ⟨hp, ?_⟩
        split at h
        · cases h
        · rename_i reads h1
          split at h
          · cases h
          · rename_i writes h2
            obtain ⟨e1, e2, e3⟩ := (findFields hl reads writes).1 ⟨h1, h2⟩
            obtain ⟨a, er⟩ := reads
            obtain ⟨c, ew⟩ := writes
            cases e1
            cases e2
            refine ⟨er, ew, e3, ?_⟩
            rcases bind_eq_panic.1 h with h | ⟨r, hr, h⟩
            · exact .inl ((C110_sum_fatal _).1 h)
            rcases bind_eq_panic.1 h with h | ⟨w, hw, h⟩
            · exact .inr ⟨⟨r, (C110_sum _ _).1 hr⟩, (C110_sum_fatal _).1 h⟩
            · cases h
      · rintro ⟨-, er, ew, h1, h2⟩
        obtain ⟨f1, f2⟩ := (findFields hl (some (str% "read"), er) (some (str% "write"), ew)).2 ⟨rfl, rfl, h1⟩
        rw [f1, f2]
        dsimp only
        rcases h2 with h2 | ⟨⟨t, h2⟩, h3⟩
        · rw [(C110_sum_fatal _).2 h2]; rfl
        · rw [(C110_sum _ _).2 h2, Res.bind_ok, (C110_sum_fatal _).2 h3]; rfl
    · rw [if_pos hl]
      constructor
      · intro h; cases h
      · rintro ⟨-, er, ew, rfl | rfl, -⟩ <;> exact absurd rfl hl
  · rw [if_pos hp]
    constructor
    · intro h; cases h
    · intro h; exact absurd h.1 hp

theorem parseRuntimeDbWeight_diverge (path : List Str) (fields : List (Option Str × Expr)) : parseRuntimeDbWeight path fields ≠ .diverge := by
  unfold parseRuntimeDbWeight
  dsimp only
  split
  · exact fun h => nomatch h
  · split
    · exact fun h => nomatch h
    · split
      · exact fun h => nomatch h
      · split
        · exact fun h => nomatch h
        · exact diverge_bind (storageExpr_diverge _) fun _ => diverge_bind (storageExpr_diverge _) fun _ h => nomatch h

/-- C110: exactly which constants are understood as costs of the database. -/
theorem C110_db (c : ConstDef) (w : StorageWeights) : storageMacro c = .ok w ↔ DbConst c w := by
  rw [storageMacro_iff]
  simp only [C110_sum]
  rfl

/-- C110: exactly which ones crash the tool. -/
theorem C110_db_fatal (c : ConstDef) : storageMacro c = .panic ↔ FatalDbConst c := by
  unfold storageMacro FatalDbConst IsDbWeight
  constructor
  · intro h
    rcases bind_eq_panic.1 h with h | ⟨db, h1, h⟩
    · exact absurd h (clean_panic (dbOfName_clean _))
    rcases bind_eq_panic.1 h with h | ⟨ty, h2, h⟩
    · exact absurd h (clean_panic (typeToString_clean _))
    split at h
    · cases h
    · rename_i hty
      rw [not_not] at hty
      subst hty
      split at h
      · rename_i path fields hv
        rcases bind_eq_panic.1 h with h | ⟨r, h3, h⟩
        · obtain ⟨h4, er, ew, h5, h6⟩ := (parseRuntimeDbWeight_panic path fields).1 h
          exact ⟨db, er, ew, ⟨(dbOfName_iff _ _).1 h1, (typeToString_iff _ _).1 h2, path, fields, hv, h4, h5⟩, h6⟩
        · cases h
      · cases h
  · rintro ⟨db, er, ew, ⟨h1, h2, path, fields, hv, h4, h5⟩, h6⟩
    rw [(dbOfName_iff _ _).2 h1, Res.bind_ok, (typeToString_iff _ _).2 h2, Res.bind_ok, if_neg (not_not_intro rfl), hv]
    dsimp only
    rw [(parseRuntimeDbWeight_panic path fields).2 ⟨h4, er, ew, h5, h6⟩]
    rfl

theorem storageMacro_diverge (c : ConstDef) : storageMacro c ≠ .diverge := by
  unfold storageMacro
  refine diverge_bind (clean_diverge (dbOfName_clean _)) fun _ => diverge_bind (clean_diverge (typeToString_clean _)) fun _ => ?_
  split
  · exact fun h => nomatch h
  · split
    · exact diverge_bind (parseRuntimeDbWeight_diverge _ _) fun _ h => nomatch h
    · exact fun h => nomatch h

/-! ### Overhead -/

theorem binaryTerm_ok (l : Expr) (op : BinOp) (r : Expr) (t : SimpleTerm) :
    binaryTerm l op r = .ok t ↔ ∃ s u, Reads1 l s ∧ Reads1 r u ∧ (op = .mul ∧ t = .mul s u ∨ op = .add ∧ t = .add s u) := by
  unfold binaryTerm
  constructor
  · intro h
    obtain ⟨s, h1, h⟩ := bind_eq_ok h
    obtain ⟨u, h2, h⟩ := bind_eq_ok h
    refine ⟨s, u, (C108_number _ _).1 h1, (C108_number _ _).1 h2, ?_⟩
    cases op with
    | mul => cases h; exact .inl ⟨rfl, rfl⟩
    | add => cases h; exact .inr ⟨rfl, rfl⟩
    | other => cases h
  · rintro ⟨s, u, h1, h2, h3⟩
    rw [(C108_number _ _).2 h1, Res.bind_ok, (C108_number _ _).2 h2, Res.bind_ok]
    rcases h3 with ⟨rfl, rfl⟩ | ⟨rfl, rfl⟩ <;> rfl

theorem binaryTerm_panic (l : Expr) (op : BinOp) (r : Expr) : binaryTerm l op r = .panic ↔ Fatal1 l ∨ (∃ s, Reads1 l s) ∧ Fatal1 r := by
  unfold binaryTerm
  constructor
  · intro h
    rcases bind_eq_panic.1 h with h | ⟨s, h1, h⟩
    · exact .inl ((C108_number_fatal _).1 h)
    rcases bind_eq_panic.1 h with h | ⟨u, h2, h⟩
    · exact .inr ⟨⟨s, (C108_number _ _).1 h1⟩, (C108_number_fatal _).1 h⟩
    · cases op <;> cases h
  · rintro (h | ⟨⟨s, h1⟩, h⟩)
    · rw [(C108_number_fatal _).2 h]; rfl
    · rw [(C108_number _ _).2 h1, Res.bind_ok, (C108_number_fatal _).2 h]; rfl

theorem overheadExpr_cases (e : Expr) : (∃ l op r, e = .binary l op r) ∨ (∀ l op r, e ≠ .binary l op r) ∧ overheadExpr e = parseExpression e := by
  cases e with
  | binary l op r => exact .inl ⟨l, op, r, rfl⟩
  | _ => exact .inr ⟨(fun _ _ _ h => nomatch h), rfl⟩

/-- C110: exactly which expressions are understood as overhead. -/
theorem C110_value (e : Expr) (t : ChromaticTerm) : overheadExpr e = .ok t ↔ ReadsOverhead e t := by
  unfold ReadsOverhead
  rcases overheadExpr_cases e with ⟨l, op, r, rfl⟩ | ⟨hb, he⟩
  · rw [overheadExpr]
    constructor
    · intro h
      obtain ⟨x, hx, h⟩ := bind_eq_ok h
      cases h
      obtain ⟨s, u, h1, h2, h3⟩ := (binaryTerm_ok _ _ _ _).1 hx
      refine .inr ⟨l, r, s, u, h1, h2, ?_⟩
      rcases h3 with ⟨rfl, rfl⟩ | ⟨rfl, rfl⟩
      · exact .inl ⟨rfl, rfl⟩
      · exact .inr ⟨rfl, rfl⟩
    · rintro (h | ⟨l', r', s, u, h1, h2, ⟨h, rfl⟩ | ⟨h, rfl⟩⟩)
      · cases h
      · cases h
        rw [(binaryTerm_ok _ _ _ _).2 ⟨s, u, h1, h2, .inl ⟨rfl, rfl⟩⟩]; rfl
      · cases h
        rw [(binaryTerm_ok _ _ _ _).2 ⟨s, u, h1, h2, .inr ⟨rfl, rfl⟩⟩]; rfl
  · rw [he, C108_weight]
    refine ⟨.inl, fun h => h.resolve_right ?_⟩
    rintro ⟨l', r', s, u, -, -, ⟨h, -⟩ | ⟨h, -⟩⟩ <;> exact hb _ _ _ h

/-- C110: exactly which ones crash the tool. -/
theorem C110_value_fatal (e : Expr) : overheadExpr e = .panic ↔ FatalOverhead e := by
  unfold FatalOverhead
  rcases overheadExpr_cases e with ⟨l, op, r, rfl⟩ | ⟨hb, he⟩
  · rw [overheadExpr, bind_eq_panic, binaryTerm_panic]
    constructor
    · rintro (h | ⟨_, _, h⟩)
      · exact .inr ⟨l, op, r, rfl, h⟩
      · cases h
    · rintro (h | ⟨l', op', r', h, h1⟩)
      · cases h
      · cases h; exact .inl h1
  · rw [he, C108_weight_fatal]
    refine ⟨.inl, fun h => h.resolve_right ?_⟩
    rintro ⟨_, _, _, h, -⟩
    exact hb _ _ _ h

theorem overheadExpr_diverge (e : Expr) : overheadExpr e ≠ .diverge := by
  rcases overheadExpr_cases e with ⟨l, op, r, rfl⟩ | ⟨-, he⟩
  · refine diverge_bind (diverge_bind (parseScalar_diverge _) fun _ => diverge_bind (parseScalar_diverge _) fun _ => ?_) fun _ h => nomatch h
    cases op <;> exact fun h => nomatch h
  · rw [he]; exact parseExpression_diverge e

/-- C110: exactly which constants are understood as overhead. -/
theorem C110_overhead (c : ConstDef) (w : OverheadWeight) : overheadMacro c = .ok w ↔ OverheadConst c w := by
  rw [overheadMacro_iff]
  simp only [C110_value]
  exact exists_congr fun _ => and_comm

/-- C110: exactly which ones crash the tool: the name does not matter. -/
theorem C110_overhead_fatal (c : ConstDef) : overheadMacro c = .panic ↔ FatalOverheadConst c := by
  unfold overheadMacro FatalOverheadConst
  rw [← C110_value_fatal]
  constructor
  · intro h
    rcases bind_eq_panic.1 h with h | ⟨ty, h1, h⟩
    · exact absurd h (clean_panic (typeToString_clean _))
    split at h
    · cases h
    · rename_i hty
      rw [not_not] at hty
      subst hty
      refine ⟨(typeToString_iff _ _).1 h1, ?_⟩
      rcases bind_eq_panic.1 h with h | ⟨w, -, h⟩
      · exact h
      · split at h
        · cases h
        · split at h <;> cases h
  · rintro ⟨h1, h2⟩
    rw [(typeToString_iff _ _).2 h1, Res.bind_ok, if_neg (not_not_intro rfl), h2]
    rfl

theorem overheadMacro_diverge (c : ConstDef) : overheadMacro c ≠ .diverge := by
  unfold overheadMacro
  refine diverge_bind (clean_diverge (typeToString_clean _)) fun _ => ?_
  split
  · exact fun h => nomatch h
  · refine diverge_bind (overheadExpr_diverge _) fun _ => ?_
    split
    · exact fun h => nomatch h
    · split <;> exact fun h => nomatch h

/-! ### Files -/

/-- The kind describes the outcome of the function. -/
structure Describes {α : Type} (k : Kind α) (f : ConstDef → Res α) : Prop where
  good : ∀ c w, f c = .ok w ↔ k.good c w
  fatal : ∀ c, f c = .panic ↔ k.fatal c
  ends : ∀ c, f c ≠ .diverge

theorem describes_storage : Describes storageKind storageMacro := ⟨C110_db, C110_db_fatal, storageMacro_diverge⟩
theorem describes_overhead : Describes overheadKind overheadMacro := ⟨C110_overhead, C110_overhead_fatal, overheadMacro_diverge⟩

theorem describes_skipped {α : Type} {k : Kind α} {f : ConstDef → Res α} (h : Describes k f) (c : ConstDef) : k.Skipped c ↔ ∃ m, f c = .err m := by
  unfold Kind.Skipped
  simp only [← h.good, ← h.fatal]
  cases hf : f c with
  | diverge => exact absurd hf (h.ends c)
  | _ => simp

theorem firstDef_panic {α : Type} (f : ConstDef → Res α) (l : List ConstDef) :
    firstDef f l = .panic ↔ ∃ pre c post, l = pre ++ c :: post ∧ f c = .panic ∧ ∀ j ∈ pre, ∃ m, f j = .err m := by
  induction l with
  | nil => simp [firstDef]
  | cons a l ih =>
    rw [firstDef]
    cases h : f a with
    | err m =>
      dsimp only
      rw [ih]
      constructor
      · rintro ⟨pre, c, post, rfl, h1, h2⟩
        refine ⟨a :: pre, c, post, rfl, h1, ?_⟩
        rintro j (_ | ⟨_, hj⟩)
        · exact ⟨m, h⟩
        · exact h2 j hj
      · rintro ⟨pre, c, post, h0, h1, h2⟩
        cases pre with
        | nil => cases h0; rw [h] at h1; cases h1
        | cons p pre => cases h0; exact ⟨pre, c, post, rfl, h1, fun j hj => h2 j (.tail _ hj)⟩
    | _ =>
      constructor
      · intro h'
        first
        | cases h'; exact ⟨[], a, l, rfl, h, by simp⟩
        | cases h'
      · rintro ⟨pre, c, post, h0, h1, h2⟩
        cases pre with
        | nil => cases h0; first | rfl | (rw [h] at h1; cases h1)
        | cons p pre => cases h0; first | rfl | (obtain ⟨m, hm⟩ := h2 a (.head _); rw [h] at hm; cases hm)

theorem firstDef_err {α : Type} (f : ConstDef → Res α) (hf : ∀ c, f c ≠ .diverge) (l : List ConstDef) :
    (∃ m, firstDef f l = .err m) ↔ ∀ j ∈ l, ∃ m, f j = .err m := by
  induction l with
  | nil => simp [firstDef]
  | cons a l ih =>
    rw [firstDef]
    cases h : f a with
    | err m => simp only; rw [ih]; simp [h]
    | ok x => simp [h]
    | panic => simp [h]
    | diverge => exact absurd h (hf a)

theorem firstDef_diverge {α : Type} (f : ConstDef → Res α) (hf : ∀ c, f c ≠ .diverge) (l : List ConstDef) : firstDef f l ≠ .diverge := by
  induction l with
  | nil => exact fun h => nomatch h
  | cons a l ih =>
    rw [firstDef]
    cases h : f a with
    | err m => exact ih
    | diverge => exact absurd h (hf a)
    | _ => exact fun h => nomatch h

/-- What both `parse_content` functions do. -/
def constContent {α : Type} (f : ConstDef → Res α) (msg : Str) (syn : SynParser) (content : Str) : Res α :=
  match syn content with
  | .error e => .err e
  | .ok items => firstOk (handleConst f) msg items

theorem constContent_ok {α : Type} {k : Kind α} {f : ConstDef → Res α} (h : Describes k f) (msg : Str) (syn : SynParser) (content : Str) (w : α) :
    constContent f msg syn content = .ok w ↔ k.Gives syn content w := by
  unfold constContent Kind.Gives
  cases hs : syn content with
  | error e => simp
  | ok items =>
    dsimp only
    rw [same_ok (firstOk_same _ _ _), firstDef_ok]
    simp only [h.good, ← describes_skipped h, Except.ok.injEq, exists_and_left, exists_eq_left']

theorem constContent_panic {α : Type} {k : Kind α} {f : ConstDef → Res α} (h : Describes k f) (msg : Str) (syn : SynParser) (content : Str) :
    constContent f msg syn content = .panic ↔ k.FatalIn syn content := by
  unfold constContent Kind.FatalIn
  cases hs : syn content with
  | error e => simp
  | ok items =>
    dsimp only
    rw [same_panic (firstOk_same _ _ _), firstDef_panic]
    simp only [h.fatal, ← describes_skipped h, Except.ok.injEq, exists_and_left, exists_eq_left']

theorem constContent_err {α : Type} {k : Kind α} {f : ConstDef → Res α} (h : Describes k f) (msg : Str) (syn : SynParser) (content : Str) :
    (∃ m, constContent f msg syn content = .err m) ↔ k.RefusedIn syn content := by
  unfold constContent Kind.RefusedIn
  cases hs : syn content with
  | error e => simp
  | ok items =>
    dsimp only
    rw [same_err (firstOk_same _ _ _), firstDef_err _ h.ends]
    simp only [← describes_skipped h, Except.ok.injEq, reduceCtorEq, exists_false, false_or, exists_eq_left']

theorem same_diverge {α : Type} {a b : Res α} (h : Res.same a b) : a = .diverge ↔ b = .diverge := by
  cases a <;> cases b <;> simp_all [Res.same]

theorem constContent_diverge {α : Type} {k : Kind α} {f : ConstDef → Res α} (h : Describes k f) (msg : Str) (syn : SynParser) (content : Str) :
    constContent f msg syn content ≠ .diverge := by
  unfold constContent
  cases hs : syn content with
  | error e => exact fun h => nomatch h
  | ok items =>
    dsimp only
    exact fun hd => firstDef_diverge _ h.ends _ ((same_diverge (firstOk_same _ _ _)).1 hd)

theorem storageContent_eq : storageContent = constContent storageMacro (str% "No DB weights found") := rfl
theorem overheadContent_eq : overheadContent = constContent overheadMacro (str% "No Overhead weights found") := rfl

/-- C110: exactly which texts are storage files, and with which weights; which crash the tool; which are refused; and nothing else happens. -/
theorem C110_storage (syn : SynParser) (content : Str) :
    (∀ w, storageContent syn content = .ok w ↔ storageKind.Gives syn content w)
    ∧ (storageContent syn content = .panic ↔ storageKind.FatalIn syn content)
    ∧ ((∃ m, storageContent syn content = .err m) ↔ storageKind.RefusedIn syn content)
    ∧ storageContent syn content ≠ .diverge := by
  rw [storageContent_eq]
  exact ⟨constContent_ok describes_storage _ _ _, constContent_panic describes_storage _ _ _, constContent_err describes_storage _ _ _,
    constContent_diverge describes_storage _ _ _⟩

/-- C110: the same for overhead files. -/
theorem C110_overheads (syn : SynParser) (content : Str) :
    (∀ w, overheadContent syn content = .ok w ↔ overheadKind.Gives syn content w)
    ∧ (overheadContent syn content = .panic ↔ overheadKind.FatalIn syn content)
    ∧ ((∃ m, overheadContent syn content = .err m) ↔ overheadKind.RefusedIn syn content)
    ∧ overheadContent syn content ≠ .diverge := by
  rw [overheadContent_eq]
  exact ⟨constContent_ok describes_overhead _ _ _, constContent_panic describes_overhead _ _ _, constContent_err describes_overhead _ _ _,
    constContent_diverge describes_overhead _ _ _⟩

/-- What both `parse_file` functions do. -/
def constFile {α : Type} (f : ConstDef → Res α) (msg : Str) (env : Env) (fs : Fs) (file : Path) : Res α := do
  constContent f msg env.syn (← readFile fs file)

theorem constFile_ok {α : Type} {k : Kind α} {f : ConstDef → Res α} (h : Describes k f) (msg : Str) (env : Env) (fs : Fs) (file : Path) (w : α) :
    constFile f msg env fs file = .ok w ↔ k.FileGives env fs file w := by
  unfold constFile readFile Kind.FileGives
  cases hf : fs file with
  | error e => simp
  | ok content => rw [Res.bind_ok, constContent_ok h]; simp

theorem constFile_panic {α : Type} {k : Kind α} {f : ConstDef → Res α} (h : Describes k f) (msg : Str) (env : Env) (fs : Fs) (file : Path) :
    constFile f msg env fs file = .panic ↔ k.FatalFile env fs file := by
  unfold constFile readFile Kind.FatalFile
  cases hf : fs file with
  | error e => simp
  | ok content => rw [Res.bind_ok, constContent_panic h]; simp

theorem constFile_err {α : Type} {k : Kind α} {f : ConstDef → Res α} (h : Describes k f) (msg : Str) (env : Env) (fs : Fs) (file : Path) :
    (∃ m, constFile f msg env fs file = .err m) ↔ k.RefusedFile env fs file := by
  unfold constFile readFile Kind.RefusedFile
  cases hf : fs file with
  | error e => simp
  | ok content => rw [Res.bind_ok, constContent_err h]; simp

theorem constFile_diverge {α : Type} {k : Kind α} {f : ConstDef → Res α} (h : Describes k f) (msg : Str) (env : Env) (fs : Fs) (file : Path) :
    constFile f msg env fs file ≠ .diverge := by
  unfold constFile readFile
  cases hf : fs file with
  | error e => exact fun h => nomatch h
  | ok content => exact constContent_diverge h _ _ _

theorem storageFile_eq : storageFile = constFile storageMacro (str% "No DB weights found") := rfl
theorem overheadFile_eq : overheadFile = constFile overheadMacro (str% "No Overhead weights found") := rfl

theorem parseFileInRepo_err (env : Env) (fs : Fs) (repo file : Path) : (∃ m, parseFileInRepo env fs repo file = .err m) ↔ RefusedFile env fs file := by
  unfold parseFileInRepo readFile RefusedFile
  cases hf : fs file with
  | error e => simp
  | ok content =>
    rw [Res.bind_ok, PathStripping.strip, Res.bind_ok]
    have : ∀ r : Res (List ChromaticExtrinsic), (∃ m, withFile file r = .err m) ↔ ∃ m, r = .err m := fun r => by cases r <;> simp [withFile]
    rw [this, C108_file_refused]
    simp

/-- C110: exactly as what a file counts. -/
theorem C110_kind (env : Env) (fs : Fs) (repo file : Path) (o : Option ParsedFile) :
    tryParseFile env fs repo file = .ok o ↔ CountsAs env fs repo file o := by
  have hp := parseFileInRepo_err env fs repo file
  have hs := constFile_err describes_storage (str% "No DB weights found") env fs file
  have ho := constFile_err describes_overhead (str% "No Overhead weights found") env fs file
  have kp := parseFileInRepo_ok env fs repo file
  have ks := constFile_ok describes_storage (str% "No DB weights found") env fs file
  have ko := constFile_ok describes_overhead (str% "No Overhead weights found") env fs file
  rw [← storageFile_eq] at hs ks
  rw [← overheadFile_eq] at ho ko
  unfold tryParseFile
  rcases o with _ | e | w | w <;> simp only [CountsAs, ← hp, ← hs, ← ho, ← kp, ← ks, ← ko]
  all_goals
    cases parseFileInRepo env fs repo file with
    | err m =>
      cases storageFile env fs file with
      | err m => cases overheadFile env fs file <;> simp [orElse]
      | _ => simp [orElse]
    | _ => simp [orElse]

/-- C110: exactly when finding this out crashes the tool. -/
theorem C110_kind_fatal (env : Env) (fs : Fs) (repo file : Path) : tryParseFile env fs repo file = .panic ↔ FatalGuess env fs file := by
  have hp := parseFileInRepo_err env fs repo file
  have hs := constFile_err describes_storage (str% "No DB weights found") env fs file
  have kp := parseFileInRepo_panic env fs repo file
  have ks := constFile_panic describes_storage (str% "No DB weights found") env fs file
  have ko := constFile_panic describes_overhead (str% "No Overhead weights found") env fs file
  have ds := constFile_diverge describes_storage (str% "No DB weights found") env fs file
  rw [← storageFile_eq] at hs ks ds
  rw [← overheadFile_eq] at ko
  unfold tryParseFile FatalGuess
  simp only [← hp, ← hs, ← kp, ← ks, ← ko]
  cases parseFileInRepo env fs repo file with
  | err m =>
    cases storageFile env fs file with
    | err m => cases overheadFile env fs file <;> simp [orElse]
    | _ => simp [orElse]
  | _ => simp [orElse]

/-- C110: it ends, and a file counts as one thing only. -/
theorem C110_kind_ends (env : Env) (fs : Fs) (repo file : Path) :
    FatalGuess env fs file ∧ (∀ o, ¬ CountsAs env fs repo file o) ∨ ¬ FatalGuess env fs file ∧ ∃ o, CountsAs env fs repo file o ∧ ∀ o', CountsAs env fs repo file o' → o' = o := by
  simp only [← C110_kind_fatal env fs repo, ← C110_kind]
  have h1 := C52_no_error env fs repo file
  have h2 : tryParseFile env fs repo file ≠ .diverge := by
    have dp := parseFileInRepo_diverge env fs repo file
    have ds := constFile_diverge describes_storage (str% "No DB weights found") env fs file
    have dd := constFile_diverge describes_overhead (str% "No Overhead weights found") env fs file
    rw [← storageFile_eq] at ds
    rw [← overheadFile_eq] at dd
    unfold tryParseFile
    revert dp ds dd
    cases parseFileInRepo env fs repo file <;> cases storageFile env fs file <;> cases overheadFile env fs file <;> simp [orElse]
  cases h : tryParseFile env fs repo file with
  | ok o => exact .inr ⟨(fun h => nomatch h), o, rfl, fun o' h => (by cases h; rfl)⟩
  | err m => exact absurd h (h1 m)
  | panic => exact .inl ⟨rfl, (fun o h => nomatch h)⟩
  | diverge => exact absurd h h2

/-! ### Examples -/

/-- `const Limit: Weight = 1.5 * WEIGHT_PER_NANOS`, which says nothing about overhead, crashes the tool before it gets to the overhead of the file. -/
def exLimit : ConstDef := ⟨str% "Limit", .path false [str% "Weight"], .binary (.lit .other) .mul (.path [str% "WEIGHT_PER_NANOS"])⟩

example : FatalOverheadConst exLimit := ⟨⟨false, _, rfl, rfl⟩, .inr ⟨_, _, _, rfl, .inl (.lit (by rintro n ⟨_, _, _, h, _⟩; cases h))⟩⟩

example : FatalGuess ⟨fun _ => .ok [.macro (str% "parameter_types") (some exLimit)], asciiClass⟩ (fun _ => .ok []) [] :=
  (C110_kind_fatal _ _ [] []).1 rfl

example : ∃ w, CountsAs exOverheadEnv (fun _ => .ok []) [] [.normal (str% "extrinsic_weights.rs")] (some (.overhead w)) :=
  ⟨_, (C110_kind _ _ _ _ _).1 rfl⟩

/-- A database constant: reading costs `8_000 * constants::WEIGHT_PER_NANOS`; what writing costs is fatal although it comes first. -/
def exBadDb : ConstDef := ⟨str% "ParityDbWeight", .path false [str% "RuntimeDbWeight"],
  .struct [str% "RuntimeDbWeight"] [(some (str% "write"), .lit .other),
    (some (str% "read"), .binary (.lit (.int (str% "8000"))) .mul (.path [str% "constants", str% "WEIGHT_PER_NANOS"]))]⟩

example : FatalDbConst exBadDb := (C110_db_fatal exBadDb).1 (by decide +kernel)

end Swc
