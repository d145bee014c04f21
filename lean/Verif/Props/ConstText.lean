/-
C81: storage and overhead weight files are read exactly, from their text.
-/
import Verif.Spec.ConstText
import Verif.Lemmas.ReadItems
import Verif.Props.ParseStorage
import Verif.Props.WeightText

namespace Swc

open Spec Term

namespace Gen

/-! ### The items of such a file -/

theorem around_items {name : Str} {c : ConstDef} {defn ts : List RTree} (hd : ItemTrees (.macro name (some c)) defn)
    (hn : name = str% "parameter_types") (h : Around defn ts) :
    ∃ inner us items, ts = inner ++ us ∧ Inner inner ∧ ItemsTrees items us ∧ definitionsIn items = [c] ∧ ∀ i ∈ items, ∀ ty its, i ≠ .impl ty its := by
  have other : ∀ l : List Item, (∀ i ∈ l, i = .other) → definitionsIn l = [] := by
    intro l hl
    induction l with
    | nil => rfl
    | cons i l ih =>
      have := hl i List.mem_cons_self
      subst this
      rw [definitionsIn, definitions, ih fun j hj => hl j (List.mem_cons_of_mem _ hj)]
      · rfl
      all_goals nofun
  have after : ∀ l : List Item, (∀ i ∈ l, i = .other ∨ ∃ name m, i = .mod name m ∧ name ≠ str% "constants") → definitionsIn l = [] := by
    intro l hl
    induction l with
    | nil => rfl
    | cons i l ih =>
      rw [definitionsIn, ih fun j hj => hl j (List.mem_cons_of_mem _ hj), List.append_nil]
      rcases hl i List.mem_cons_self with rfl | ⟨name, m, rfl, hne⟩
      · rw [definitions]
        all_goals nofun
      · cases m with
        | none =>
          rw [definitions]
          all_goals nofun
        | some m => rw [definitions, if_neg hne]
  have append : ∀ l m : List Item, definitionsIn (l ++ m) = definitionsIn l ++ definitionsIn m := by
    intro l m
    induction l with
    | nil => rfl
    | cons i l ih => rw [List.cons_append, definitionsIn, definitionsIn, ih, List.append_assoc]
  have noImpl : ∀ (skipped others : List Item) (x : Item), (∀ i ∈ skipped, i = .other) →
      (∀ i ∈ others, i = .other ∨ ∃ name m, i = .mod name m ∧ name ≠ str% "constants") → (∀ ty its, x ≠ .impl ty its) →
      ∀ i ∈ skipped ++ x :: others, ∀ ty its, i ≠ .impl ty its := by
    intro skipped others x hs ho hx i hi ty its
    rcases List.mem_append.1 hi with hi | hi
    · rw [hs i hi]; rintro ⟨⟩
    · rcases List.mem_cons.1 hi with rfl | hi
      · exact hx ty its
      · rcases ho i hi with rfl | ⟨_, _, rfl, _⟩ <;> rintro ⟨⟩
  induction h with
  | here hi hb hs ha ho =>
    refine ⟨_, _, _, rfl, hi, itemsTrees_append hb (.cons .nil .none hd ha), ?_, noImpl _ _ _ hs ho (by intros; rintro ⟨⟩)⟩
    rw [append, other _ hs, definitionsIn, after _ ho, definitions, if_pos hn]
    rfl
  | constants hi hb hs hat hv _ ha ho ih =>
    obtain ⟨inner', us, items, rfl, h1, h2, h3, h4⟩ := ih
    refine ⟨_, _, _, rfl, hi, itemsTrees_append hb (.cons hat hv (.mod (name_of (by decide)) h1 h2) ha), ?_, noImpl _ _ _ hs ho (by intros; rintro ⟨⟩)⟩
    rw [append, other _ hs, definitionsIn, after _ ho, definitions, if_pos rfl, h3]
    rfl

theorem around_read {name ty : Str} {e : Expr} {val defn ts : List RTree} {s : Str} (hname : Name name) (hty : nameB ty = true) (he : Spec.Sum e val)
    (hd : ParameterTrees name ty val defn) (h : Around defn ts) (hp : proper ts = true) (hl : Layout (toksOf ts) s) :
    ∃ items, rustSyn s = .ok items ∧ definitionsIn items = [⟨name, .path false [ty], e⟩] ∧ ∀ i ∈ items, ∀ ty its, i ≠ .impl ty its := by
  cases hd with
  | mk ha hv =>
    have hc : ConstTrees ⟨name, .path false [ty], e⟩ _ := .mk hname ha hv (type_of hty) he
    obtain ⟨inner, us, items, rfl, h1, h2, h3, h4⟩ := around_items (.const (name_of (x := str% "parameter_types") (by decide)) hc) rfl h
    exact ⟨items, rustSyn_fileText ⟨inner, us, h1, h2, hp, hl⟩, h3, h4⟩

/-- Without an implementation there are no weights of a pallet. -/
theorem no_pallet_content (cc : CharClass) {items : List Item} {s : Str} (hs : rustSyn s = .ok items) (h : ∀ i ∈ items, ∀ ty its, i ≠ .impl ty its)
    (name : Str) : ∃ m, parseContent rustSyn cc name s = .err m := by
  have key : ∀ (n : Str) (msg : Str) (l : List Item), (∀ i ∈ l, ∀ ty its, i ≠ .impl ty its) → firstOk (handleItem cc n) msg l = .err msg := by
    intro n msg l hl
    induction l with
    | nil => rfl
    | cons i l ih =>
      have := hl i List.mem_cons_self
      rw [firstOk]
      cases i with
      | impl ty its => exact absurd rfl (this ty its)
      | _ => exact ih fun j hj => hl j (List.mem_cons_of_mem _ hj)
  rw [parseContent, hs]
  dsimp only
  exact ⟨_, key _ _ items h⟩

theorem no_pallet (cc : CharClass) {items : List Item} {s : Str} (hs : rustSyn s = .ok items) (h : ∀ i ∈ items, ∀ ty its, i ≠ .impl ty its) (fs : Fs)
    (repo file : Path) (hf : fs file = .ok s) : ∃ m, parseFileInRepo ⟨rustSyn, cc⟩ fs repo file = .err m := by
  rw [parseFileInRepo, readFile, hf, Res.bind_ok, PathStripping.strip, Res.bind_ok]
  dsimp only
  obtain ⟨m, hm⟩ := no_pallet_content cc hs h (Path.display ((Path.stripPrefix repo file).getD file))
  rw [hm]
  exact ⟨_, rfl⟩

/-! ### Costs -/

theorem perNano_path {p : List Str} (h : PerNano p) : PathTrees p (joinPath p) ∧ constantValue p = some 1000 := by
  rcases h with rfl | rfl | rfl | rfl
  · exact ⟨.one (name_of (by decide)), by decide⟩
  · exact ⟨.one (name_of (by decide)), by decide⟩
  · exact ⟨.cons (name_of (by decide)) (.one (name_of (by decide))), by decide⟩
  · exact ⟨.cons (name_of (by decide)) (.one (name_of (by decide))), by decide⟩

theorem cost_read {c : Cost} {ts : List RTree} (h : CostTrees c ts) (hc : c.value < 2 ^ 128) :
    ∃ e t, Spec.Sum e ts ∧ storageExpr e = .ok t ∧ ∀ b, eval b t Scope.fromSubstrate = .ok c.value := by
  cases h with
  | units =>
    rename_i n
    obtain ⟨t, h1, h2⟩ := C50_value (M := 2 ^ 128 - 1) (by decide) (e := .lit (.int (Nat.toDigits 10 n))) (n := n)
      (by simp only [constExpr, readNat_digits, Option.bind_some, upTo]; exact if_pos (by have : n < 2 ^ 128 := hc; omega))
    exact ⟨_, t, sum_postfix (.atom .int), h1, h2⟩
  | nanos hp =>
    rename_i n p
    obtain ⟨h1, h2⟩ := perNano_path hp
    have hn : n * 1000 < 2 ^ 128 := hc
    obtain ⟨t, h3, h4⟩ := C50_value (M := 2 ^ 128 - 1) (by decide) (e := .binary (.lit (.int (Nat.toDigits 10 n))) .mul (.path p)) (n := n * 1000)
      (by
        simp only [constExpr, readNat_digits, h2, Option.bind_some, upTo]
        rw [if_pos (by omega)]
        exact if_pos (by omega))
    exact ⟨_, t, .product (.mul (.factor (.postfix (.atom .int))) (.postfix (.atom (.path h1)))), h3, h4⟩

theorem notes_fields {ns us : List RTree} {f : Option Str × Expr} {l : List (Option Str × Expr)} (hn : Notes ns) (h : Fields (f :: l) us) :
    Fields (f :: l) (ns ++ us) := by
  induction hn with
  | nil => exact h
  | doc _ ih => exact .doc ih
  | attr _ ih => exact .attr ih

theorem rw_read {read write : Cost} {ts : List RTree} (h : RwTrees read write ts) (hr : read.value < 2 ^ 128) (hw : write.value < 2 ^ 128) :
    ∃ fields e f t u, Fields fields ts ∧
      (fields = [(some (str% "read"), e), (some (str% "write"), f)] ∨ fields = [(some (str% "write"), f), (some (str% "read"), e)]) ∧
      storageExpr e = .ok t ∧ storageExpr f = .ok u ∧
      ∀ b, eval b t Scope.fromSubstrate = .ok read.value ∧ eval b u Scope.fromSubstrate = .ok write.value := by
  cases h with
  | mk hxy hn hm hc hd hcomma =>
    have two : ∀ {x y : Str} {e f : Expr} {ns ms cs ds comma : List RTree}, Name x → Name y → Notes ns → Notes ms → Spec.Sum e cs → Spec.Sum f ds →
        (comma = [] ∨ comma = [sy .comma]) →
        Fields [(some x, e), (some y, f)] (ns ++ id' x :: sy .colon :: (cs ++ sy .comma :: (ms ++ id' y :: sy .colon :: (ds ++ comma)))) := by
      intro x y e f ns ms cs ds comma hx hy hn hm he hf hcomma
      refine notes_fields hn (.cons hx he (notes_fields hm ?_))
      rcases hcomma with rfl | rfl
      · rw [List.append_nil]; exact .one hy hf
      · exact .cons hy hf .nil
    rcases hxy with ⟨rfl, rfl, rfl, rfl⟩ | ⟨rfl, rfl, rfl, rfl⟩
    · obtain ⟨e, t, h1, h2, h3⟩ := cost_read hc hr
      obtain ⟨f, u, k1, k2, k3⟩ := cost_read hd hw
      exact ⟨_, e, f, t, u, two (name_of (by decide)) (name_of (by decide)) hn hm h1 k1 hcomma, .inl rfl, h2, k2, fun b => ⟨h3 b, k3 b⟩⟩
    · obtain ⟨e, t, h1, h2, h3⟩ := cost_read hd hr
      obtain ⟨f, u, k1, k2, k3⟩ := cost_read hc hw
      exact ⟨_, e, f, t, u, two (name_of (by decide)) (name_of (by decide)) hn hm k1 h1 hcomma, .inr rfl, h2, k2, fun b => ⟨h3 b, k3 b⟩⟩

theorem firstDef_one {α : Type} (f : ConstDef → Res α) (msg : Str) {items : List Item} {c : ConstDef} (h : definitionsIn items = [c]) :
    Res.same (firstOk (handleConst f) msg items) (f c) := by
  have := firstOk_same f msg items
  rw [h, firstDef] at this
  cases hc : f c with
  | err m =>
    rw [hc] at this
    cases hx : firstOk (handleConst f) msg items <;> rw [hx] at this <;> first | trivial | cases this
  | _ => rw [hc] at this; exact this

end Gen

/-- C81: from the text of a file with the costs of a database the tool reads exactly that database and those costs; the file is recognised as such a
file. -/
theorem C81_db_file (cc : CharClass) {db : Db} {read write : Cost} {s : Str} (h : DbFile db read write s) (hr : read.value < 2 ^ 128)
    (hw : write.value < 2 ^ 128) :
    ∃ w, storageContent rustSyn s = .ok w ∧ w.db = db ∧
      (∀ b, eval b w.weights.read Scope.fromSubstrate = .ok read.value ∧ eval b w.weights.write Scope.fromSubstrate = .ok write.value) ∧
      ∀ (fs : Fs) (repo file : Path), fs file = .ok s → tryParseFile ⟨rustSyn, cc⟩ fs repo file = .ok (some (.storage w)) := by
  obtain ⟨fields, defn, ts, h1, h2, h3, h4, h5⟩ := h
  obtain ⟨fs', e, f, t, u, k1, k2, k3, k4, k5⟩ := Gen.rw_read h1 hr hw
  obtain ⟨items, j1, j2, j3⟩ := Gen.around_read (by cases db <;> exact Gen.name_of (by decide)) (by decide)
    (Gen.sum_postfix (.atom (.struct (.one (Gen.name_of (x := str% "RuntimeDbWeight") (by decide))) k1))) h2 h3 h4 h5
  have hm : storageMacro ⟨dbName db, .path false [str% "RuntimeDbWeight"], .struct [str% "RuntimeDbWeight"] fs'⟩ = .ok ⟨db, t, u⟩ := by
    refine (storageMacro_iff _ _).2 ⟨e, f, ⟨?_, ⟨false, _, rfl, by decide⟩, _, fs', rfl, by decide, k2⟩, k3, k4⟩
    cases db
    · exact .inr ⟨rfl, rfl⟩
    · exact .inl ⟨rfl, rfl⟩
  have hc : storageContent rustSyn s = .ok ⟨db, t, u⟩ := by
    rw [storageContent, j1]
    exact (same_ok (Gen.firstDef_one storageMacro _ j2) _).2 hm
  refine ⟨⟨db, t, u⟩, hc, rfl, k5, fun fs repo file hf => ?_⟩
  obtain ⟨m, hm⟩ := Gen.no_pallet cc j1 j3 fs repo file hf
  refine (C52_priority _ fs repo file).2.1 m _ hm ?_
  rw [storageFile, readFile, hf, Res.bind_ok]
  exact hc

/-- What is read from an overhead file. -/
def Spec.overheadOf (o : Overhead) (t : ChromaticTerm) : OverheadWeight :=
  match o with
  | .block => .blockExecution t
  | .extrinsic => .extrinsicBase t

namespace Gen

theorem refTime_value {digits : Str} {n k : Nat} {fn segs : List Str} {tr tr' : Bool} (hf : isFn (str% "from_ref_time") fn = true)
    (h : readNat digits = some n) (hk : constantValue segs = some k) (hn : n * k < 2 ^ 64) :
    ∃ t, overheadExpr (.call (.path fn) [.methodCall (.path segs) (str% "saturating_mul") [.lit (.int digits)] tr] tr') = .ok t
      ∧ ∀ b, ∃ st sp, simplify .time t = .ok st ∧ simplify .proof t = .ok sp
        ∧ eval b st Scope.fromSubstrate = .ok (n * k) ∧ eval b sp Scope.fromSubstrate = .ok 0 := by
  have hk1 : k = 1000 := by
    unfold constantValue at hk
    split at hk <;> cases hk
    rfl
  have hn' : n < 2 ^ 128 := by subst hk1; omega
  have hmul : ∀ (b : Build) (x y : Nat), x * y < 2 ^ 128 → mulU128 b x y = .ok (x * y) := fun b x y h => if_pos (by exact h)
  refine ⟨.mul (.var (pathToString segs (some (str% "::")))) (.value ⟨n, 0⟩), ?_,
    fun b => ⟨_, _, C09_simplify_total _ _, C09_simplify_total _ _, ?_, ?_⟩⟩
  · rw [overheadExpr]
    · rw [pe_fromRefTime hf, ps_mul, parseScalar, parseScalar, lit_ok h hn']
      rfl
    · intro l op r h; cases h
  all_goals
    have hc := constantValue_eval hk b
    rw [eval_eq, evalWith] at hc
    rw [eval_eq]
    simp only [project, evalWith, hc, Res.bind_ok]
  · rw [hmul b k n (by rw [Nat.mul_comm]; omega), Nat.mul_comm]
  · rw [hmul b k 0 (by simp), Nat.mul_zero]

theorem overhead_read {n p : Nat} {ts : List RTree} (h : OverheadTrees n p ts) (hn : n * 1000 < 2 ^ 64) (hp : p < 2 ^ 64) :
    ∃ e t, Spec.Sum e ts ∧ overheadExpr e = .ok t
      ∧ ∀ b, ∃ st sp, simplify .time t = .ok st ∧ simplify .proof t = .ok sp
        ∧ eval b st Scope.fromSubstrate = .ok (n * 1000) ∧ eval b sp Scope.fromSubstrate = .ok p := by
  cases h with
  | plain hq =>
    obtain ⟨h1, h2⟩ := perNano_path hq
    obtain ⟨t, h3, h4⟩ := C51_old_template (readNat_digits n) h2 hn
    exact ⟨_, t, .product (.mul (.factor (.postfix (.atom .int))) (.postfix (.atom (.path h1)))), h3, h4⟩
  | refTime hq =>
    obtain ⟨h1, h2⟩ := perNano_path hq
    obtain ⟨t, h3, h4⟩ := refTime_value (fn := [str% "Weight", str% "from_ref_time"]) (tr := false) (tr' := false) (by decide) (readNat_digits n) h2 hn
    exact ⟨_, t, sum_postfix (.call (.atom (.path (path_weight (by decide))))
      (.one (sum_postfix (call_postfix (.atom (.path h1)) (by decide) (sum_postfix (.atom .int)))))), h3, h4⟩
  | parts hq =>
    obtain ⟨h1, h2⟩ := perNano_path hq
    obtain ⟨t, h3, h4⟩ := C51_new_template (fn := [str% "Weight", str% "from_parts"]) (tr := false) (tr' := false) (by decide) (readNat_digits n)
      (readNat_digits p) h2 hn hp
    exact ⟨_, t, sum_postfix (.call (.atom (.path (path_weight (by decide))))
      (.cons (sum_postfix (call_postfix (.atom (.path h1)) (by decide) (sum_postfix (.atom .int)))) (.one (sum_postfix (.atom .int))))), h3, h4⟩

end Gen

/-- C81: from the text of an overhead file the tool reads exactly which overhead it is and how much time and proof size it takes; the file is
recognised as such a file. -/
theorem C81_overhead_file (cc : CharClass) {o : Overhead} {n p : Nat} {s : Str} (h : OverheadFile o n p s) (hn : n * 1000 < 2 ^ 64) (hp : p < 2 ^ 64) :
    ∃ t, overheadContent rustSyn s = .ok (overheadOf o t) ∧
      (∀ b, ∃ st sp, simplify .time t = .ok st ∧ simplify .proof t = .ok sp
        ∧ eval b st Scope.fromSubstrate = .ok (n * 1000) ∧ eval b sp Scope.fromSubstrate = .ok p) ∧
      ∀ (fs : Fs) (repo file : Path), fs file = .ok s → tryParseFile ⟨rustSyn, cc⟩ fs repo file = .ok (some (.overhead (overheadOf o t))) := by
  obtain ⟨val, defn, ts, h1, h2, h3, h4, h5⟩ := h
  obtain ⟨e, t, k1, k2, k3⟩ := Gen.overhead_read h1 hn hp
  obtain ⟨items, j1, j2, j3⟩ := Gen.around_read (by cases o <;> exact Gen.name_of (by decide)) (by decide) k1 h2 h3 h4 h5
  have hm : overheadMacro ⟨o.name, .path false [str% "Weight"], e⟩ = .ok (overheadOf o t) := by
    refine (overheadMacro_iff _ _).2 ⟨t, k2, ?_, false, _, rfl, by decide⟩
    cases o
    · exact .inl ⟨rfl, rfl⟩
    · exact .inr ⟨rfl, rfl⟩
  have hc : overheadContent rustSyn s = .ok (overheadOf o t) := by
    rw [overheadContent, j1]
    exact (same_ok (Gen.firstDef_one overheadMacro _ j2) _).2 hm
  refine ⟨t, hc, k3, fun fs repo file hf => ?_⟩
  obtain ⟨m, hm⟩ := Gen.no_pallet cc j1 j3 fs repo file hf
  have hs : ∃ m, storageFile ⟨rustSyn, cc⟩ fs file = .err m := by
    rw [storageFile, readFile, hf, Res.bind_ok, storageContent]
    dsimp only
    rw [j1]
    refine (same_err (Gen.firstDef_one storageMacro _ j2)).2 ?_
    cases o <;> exact ⟨_, rfl⟩
  obtain ⟨m', hs⟩ := hs
  refine (C52_priority _ fs repo file).2.2.1 m m' _ hm hs ?_
  rw [overheadFile, readFile, hf, Res.bind_ok]
  exact hc

/-! ### Concrete files (shortened from `test_data`) -/

/-- `test_data/new/rocksdb_weights.rs.txt`. -/
def exDbText : Str :=
  str% "// See the License.\n\npub mod constants {\n\tuse frame_support::{\n\t\tparameter_types,\n\t\tweights::{constants, RuntimeDbWeight},\n\t};\n\n\tparameter_types! {\n\t\t/// By default, Substrate uses RocksDB, so this will be the weight used throughout\n\t\t/// the runtime.\n\t\tpub const RocksDbWeight: RuntimeDbWeight = RuntimeDbWeight {\n\t\t\t/// Time to read one storage item.\n\t\t\tread: 25 * constants::WEIGHT_PER_NANOS,\n\t\t\twrite: 100 * constants::WEIGHT_PER_NANOS,\n\t\t};\n\t}\n\n\t#[cfg(test)]\n\tmod test_db_weights { }\n}\n"

example : DbFile .rocks (.nanos 25) (.nanos 100) exDbText := by
  refine ⟨_, _, _, .mk (x := str% "read") (y := str% "write") (.inl ⟨rfl, rfl, rfl, rfl⟩) (.doc (s := str% " Time to read one storage item.") .nil) .nil
      (.nanos (p := [str% "constants", str% "WEIGHT_PER_NANOS"]) (.inr (.inr (.inl rfl))))
      (.nanos (p := [str% "constants", str% "WEIGHT_PER_NANOS"]) (.inr (.inr (.inl rfl)))) (.inr rfl),
    .mk (.doc (s := str% " By default, Substrate uses RocksDB, so this will be the weight used throughout") (Gen.docText_plain (by decide))
      (.doc (s := str% " the runtime.") (Gen.docText_plain (by decide)) .nil)) .pub,
    .constants .nil .nil (by simp) .nil .pub
      (.here .nil (.cons .nil .none (.use (k := str% "use") (ts := [id' (str% "frame_support"), sy .path, .group .brace [id' (str% "parameter_types"), sy .comma,
          id' (str% "weights"), sy .path, .group .brace [id' (str% "constants"), sy .comma, id' (str% "RuntimeDbWeight")], sy .comma]]) (.inl rfl)
          (by simp [NoSemi])) .nil) (by simp)
        (.cons (.attr (us := [id' (str% "cfg"), .group .paren [id' (str% "test")]]) (by simp) .nil) .none
          (.mod (Gen.name_of (x := str% "test_db_weights") (by decide)) .nil .nil) .nil)
        (by simp)) .nil (by simp), by decide +kernel, LayoutCheck.layoutB_sound (by decide +kernel)⟩

example : (Cost.nanos 25).value = 25000 ∧ (Cost.nanos 100).value = 100000 := by decide

/-- `test_data/chromatic/block_weights.rs.txt`. -/
def exOverheadText : Str :=
  str% "//! WARMUPS: `10`, REPEAT: `100`\n\nuse sp_core::parameter_types;\nuse sp_weights::{constants::WEIGHT_REF_TIME_PER_NANOS, Weight};\n\nparameter_types! {\n\t/// Time to execute an empty block.\n\tpub const BlockExecutionWeight: Weight =\n\t\tWeight::from_ref_time(WEIGHT_REF_TIME_PER_NANOS.saturating_mul(381_015));\n}\n\n#[cfg(test)]\nmod test_weights {\n\tuse sp_weights::constants;\n\n\t/// Checks that the weight exists and is sane.\n\t#[test]\n\tfn sane() {\n\t}\n}\n"

example : OverheadFile .block 381015 0 exOverheadText := by
  refine ⟨_, _, _, .refTime (q := [str% "WEIGHT_REF_TIME_PER_NANOS"]) (.inr (.inl rfl)),
    .mk (.doc (s := str% " Time to execute an empty block.") (Gen.docText_plain (by decide)) .nil) .pub,
    .here (.doc (s := str% " WARMUPS: `10`, REPEAT: `100`") .nil)
      (.cons .nil .none (.use (k := str% "use") (ts := [id' (str% "sp_core"), sy .path, id' (str% "parameter_types")]) (.inl rfl) (by simp [NoSemi]))
        (.cons .nil .none (.use (k := str% "use") (ts := [id' (str% "sp_weights"), sy .path, .group .brace [id' (str% "constants"), sy .path,
          id' (str% "WEIGHT_REF_TIME_PER_NANOS"), sy .comma, id' (str% "Weight")]]) (.inl rfl) (by simp [NoSemi])) .nil)) (by simp)
      (.cons (.attr (us := [id' (str% "cfg"), .group .paren [id' (str% "test")]]) (by simp) .nil) .none
        (.mod (Gen.name_of (x := str% "test_weights") (by decide)) .nil
          (.cons .nil .none (.use (k := str% "use") (ts := [id' (str% "sp_weights"), sy .path, id' (str% "constants")]) (.inl rfl) (by simp [NoSemi]))
            (.cons (.doc (s := str% " Checks that the weight exists and is sane.") (Gen.docText_plain (by decide))
                (.attr (us := [id' (str% "test")]) (by simp) .nil)) .none
              (.body (k := str% "fn") (ts := [id' (str% "sane"), .group .paren []]) (us := []) (by decide) (by simp [NoBody])) .nil))) .nil)
      (by simp), by decide +kernel, LayoutCheck.layoutB_sound (by decide +kernel)⟩

example : overheadContent rustSyn exOverheadText =
    .ok (.blockExecution (.mul (.var (str% "WEIGHT_REF_TIME_PER_NANOS")) (.value ⟨381015, 0⟩))) := by decide +kernel

end Swc
