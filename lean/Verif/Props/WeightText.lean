/-
C79: from the text of a generated weight file to the equations, names and ranges read from it.
-/
import Verif.Spec.WeightFile
import Verif.Spec.Source
import Verif.Lemmas.ReadItems
import Verif.Lemmas.LayoutCheck
import Verif.Props.Parse
import Verif.Props.ParseFile
import Verif.Props.Format
import Verif.Props.EndToEnd

namespace Swc

open Spec Term

/-! ### The syntax trees of generated functions -/

namespace Gen

/-- The syntax tree of a number with its type. -/
def litE : Style → Nat → Expr
  | .parts, n => .lit (.int (Nat.toDigits 10 n))
  | _, n => .cast (.lit (.int (Nat.toDigits 10 n)))

/-- The syntax tree of a weight. -/
def weightE : Style → Nat → Nat → Expr
  | .parts, t, p => .call (.path [str% "Weight", str% "from_parts"]) [litE .parts t, litE .parts p] false
  | .refTime, t, _ => .call (.path [str% "Weight", str% "from_ref_time"]) [litE .refTime t] false
  | .plain, t, _ => .paren (litE .plain t)

/-- The syntax tree of a component. -/
def compE : Style → Str → Expr
  | .parts, c => .methodCall (.path [c]) (str% "into") [] false
  | _, c => .cast (.path [c])

/-- A method call with one argument. -/
def callE (r : Expr) (m : Str) (a : Expr) : Expr := .methodCall r m [a] false

/-- The syntax tree of a summand. -/
def summandE (style : Style) (db : List Str) : Summand → Expr
  | .slope t p c => callE (weightE style t p) (str% "saturating_mul") (compE style c)
  | .reads n => callE (.call (.path db) [] false) (str% "reads") (litE style n)
  | .writes n => callE (.call (.path db) [] false) (str% "writes") (litE style n)
  | .readsPer n c => callE (.call (.path db) [] false) (str% "reads") (callE (.paren (litE style n)) (str% "saturating_mul") (compE style c))
  | .writesPer n c => callE (.call (.path db) [] false) (str% "writes") (callE (.paren (litE style n)) (str% "saturating_mul") (compE style c))

/-- The syntax tree of a body. -/
def bodyE (style : Style) (db : List Str) (f : GenFn) : Expr :=
  f.summands.foldl (fun e s => callE e (str% "saturating_add") (summandE style db s)) (weightE style f.time f.proof)

/-! ### They are what the texts say -/

/-- A check for names. -/
def nameB (x : Str) : Bool :=
  (match x with
    | c :: r => (c.isAlpha || c == '_') && r.all (fun d => d.isAlpha || d.isDigit || d == '_')
    | [] => false) && !(x ∈ reserved)

theorem name_of {x : Str} (h : nameB x = true) : Name x := by
  unfold nameB at h
  cases x with
  | nil => simp at h
  | cons c r =>
    simp only [Bool.and_eq_true, Bool.or_eq_true, beq_iff_eq, List.all_eq_true, Bool.not_eq_true', decide_eq_false_iff_not] at h
    refine ⟨⟨c, r, rfl, h.1.1, fun d hd => ?_⟩, h.2⟩
    have := h.1.2 d hd
    unfold WordChar
    rcases this with (h | h) | h <;> simp [h]

theorem type_of {x : Str} (h : nameB x = true) : TypeTrees (.path false [x]) [id' x] := by
  have := TypeTrees.path (.one (name_of h)) .none
  exact this

theorem sum_factor {e : Expr} {ts : List RTree} (h : CastExpr e ts) : Spec.Sum e ts := .product (.factor h)
theorem sum_postfix {e : Expr} {ts : List RTree} (h : Postfix e ts) : Spec.Sum e ts := sum_factor (.postfix h)

theorem lit_factor (style : Style) (n : Nat) : CastExpr (litE style n) (numTrees style n) := by
  have h : CastExpr (.lit (.int (Nat.toDigits 10 n))) [nat' n] := .postfix (.atom .int)
  cases style
  · exact h
  · exact .cast h (type_of (by decide))
  · exact .cast h (type_of (by decide))

theorem path_weight {m : Str} (h : nameB m = true) : PathTrees [str% "Weight", m] [id' (str% "Weight"), sy .path, id' m] :=
  .cons (name_of (by decide)) (.one (name_of h))

theorem weight_postfix (style : Style) (t p : Nat) : Postfix (weightE style t p) (weightTrees style t p) := by
  cases style
  · exact .call (.atom (.path (path_weight (by decide)))) (.cons (sum_factor (lit_factor .parts t)) (.one (sum_factor (lit_factor .parts p))))
  · exact .call (.atom (.path (path_weight (by decide)))) (.one (sum_factor (lit_factor .refTime t)))
  · exact .atom (.paren (sum_factor (lit_factor .plain t)))

theorem comp_factor (style : Style) {c : Str} (hc : Name c) : CastExpr (compE style c) (compTrees style c) := by
  cases style
  · exact .postfix (.method (.atom (.path (.one hc))) (name_of (by decide)) .nil)
  · exact .cast (.postfix (.atom (.path (.one hc)))) (type_of (by decide))
  · exact .cast (.postfix (.atom (.path (.one hc)))) (type_of (by decide))

theorem call_postfix {e a : Expr} {m : Str} {ts us : List RTree} (h : Postfix e ts) (hm : nameB m = true) (ha : Spec.Sum a us) :
    Postfix (callE e m a) (ts ++ callTrees m us) := .method h (name_of hm) (.one ha)

theorem db_postfix {db : List Str} (h : DbPath db) : Postfix (.call (.path db) [] false) (joinPath db ++ [.group .paren []]) := by
  refine .call (.atom (.path ?_)) .nil
  rcases h with rfl | rfl | rfl
  · exact .cons (name_of (by decide)) (.cons (name_of (by decide)) (.one (name_of (by decide))))
  · exact .cons (name_of (by decide)) (.one (name_of (by decide)))
  · exact .cons (name_of (by decide)) (.one (name_of (by decide)))

theorem summand_postfix (style : Style) {db : List Str} (hdb : DbPath db) (s : Summand) (hs : ∀ c ∈ s.comps, Name c) :
    Postfix (summandE style db s) (summandTrees style db s) := by
  have acc : ∀ {m : Str} {a : Expr} {us : List RTree}, nameB m = true → Spec.Sum a us →
      Postfix (callE (.call (.path db) [] false) m a) (joinPath db ++ .group .paren [] :: callTrees m us) := by
    intro m a us hm ha
    have := call_postfix (db_postfix hdb) hm ha
    rwa [List.append_assoc] at this
  have per : ∀ {n : Nat} {c : Str}, Name c → Spec.Sum (callE (.paren (litE style n)) (str% "saturating_mul") (compE style c))
      (.group .paren (numTrees style n) :: callTrees (str% "saturating_mul") (compTrees style c)) := by
    intro n c hc
    exact sum_postfix (call_postfix (.atom (.paren (sum_factor (lit_factor style n)))) (by decide) (sum_factor (comp_factor style hc)))
  cases s with
  | slope t p c => exact call_postfix (weight_postfix style t p) (by decide) (sum_factor (comp_factor style (hs c (by simp [Summand.comps]))))
  | reads n => exact acc (by decide) (sum_factor (lit_factor style n))
  | writes n => exact acc (by decide) (sum_factor (lit_factor style n))
  | readsPer n c => exact acc (by decide) (per (hs c (by simp [Summand.comps])))
  | writesPer n c => exact acc (by decide) (per (hs c (by simp [Summand.comps])))

theorem body_sum (style : Style) {db : List Str} (hdb : DbPath db) (f : GenFn) (hs : ∀ s ∈ f.summands, ∀ c ∈ s.comps, Name c) :
    Spec.Sum (bodyE style db f) (bodyTrees style db f) := by
  apply sum_postfix
  unfold bodyE bodyTrees
  have := weight_postfix style f.time f.proof
  generalize weightE style f.time f.proof = e at this
  generalize weightTrees style f.time f.proof = ts at this
  generalize f.summands = l at hs
  induction l generalizing e ts with
  | nil => simpa using this
  | cons s l ih =>
    have h := ih _ _
      (call_postfix this (m := str% "saturating_add") (by decide) (sum_postfix (summand_postfix style hdb s (hs s List.mem_cons_self))))
      (fun s h => hs s (List.mem_cons_of_mem _ h))
    rw [List.append_assoc] at h
    exact h

/-! ### Their meaning -/

theorem readNat_digits (n : Nat) : readNat (Nat.toDigits 10 n) = some n := by
  have := @readNat_natToStr n
  exact this

theorem db_isDb {db : List Str} (h : DbPath db) : isDb (.call (.path db) [] false) = true := by
  rcases h with rfl | rfl | rfl <;> decide

theorem num_lit (style : Style) (n : Nat) (rt : Runtime) : num exact rt (litE style n) = some n := by
  cases style <;> simp [litE, num, readNat_digits, exact]

theorem num_comp (style : Style) {c : Str} (h1 : c ≠ str% "READ") (h2 : c ≠ str% "WRITE") (rt : Runtime) :
    num exact rt (compE style c) = some (rt.comp c) := by
  cases style <;> simp [compE, num, named, joinStr, h1, h2]

theorem weight_base {style : Style} (h : style ≠ .plain) (t p : Nat) (hp : style ≠ .parts → p = 0) (rt : Runtime) :
    weight exact rt (weightE style t p) = some ⟨t, p⟩ := by
  cases style with
  | parts => 
    simp only [weightE, weight, if_pos (show isFn (str% "from_parts") [str% "Weight", str% "from_parts"] = true by decide), num_lit]; rfl
  | refTime =>
    simp only [weightE, weight, if_pos (show isFn (str% "from_ref_time") [str% "Weight", str% "from_ref_time"] = true by decide), num_lit,
      hp (by decide)]; rfl
  | plain => exact absurd rfl h

theorem weight_add {r a : Expr} {rt : Runtime} {x y : Weight} (hx : weight exact rt r = some x) (hy : weight exact rt a = some y) :
    weight exact rt (callE r (str% "saturating_add") a) = some ⟨x.time + y.time, x.proof + y.proof⟩ := by
  rw [callE, weight, if_neg (fun h => absurd h.1 (by decide)), if_neg (fun h => absurd h.1 (by decide)), if_pos rfl, hx, hy]; rfl

theorem weight_summand {style : Style} (h : style ≠ .plain) {db : List Str} (hdb : DbPath db) (s : Summand)
    (hs : ∀ c ∈ s.comps, c ≠ str% "READ" ∧ c ≠ str% "WRITE") (hp : style ≠ .parts → s.proofSize = 0) (rt : Runtime) :
    weight exact rt (summandE style db s) = some ⟨s.cost rt .time, s.cost rt .proof⟩ := by
  have per : ∀ {n : Nat} {c : Str}, c ≠ str% "READ" → c ≠ str% "WRITE" →
      num exact rt (callE (.paren (litE style n)) (str% "saturating_mul") (compE style c)) = some (n * rt.comp c) := by
    intro n c h1 h2
    rw [callE, num, if_neg (by decide), if_pos rfl, num, num_lit, num_comp style h1 h2]; rfl
  cases s with
  | slope t p c =>
    have := hs c (by simp [Summand.comps])
    rw [summandE, callE, weight, if_neg (fun h => absurd h.1 (by decide)), if_neg (fun h => absurd h.1 (by decide)), if_neg (by decide), if_pos rfl, weight_base h t p hp,
      num_comp style this.1 this.2]
    rfl
  | reads n => rw [summandE, callE, weight, if_pos ⟨rfl, db_isDb hdb⟩, num_lit]; rfl
  | writes n => rw [summandE, callE, weight, if_neg (fun h => absurd h.1 (by decide)), if_pos ⟨rfl, db_isDb hdb⟩, num_lit]; rfl
  | readsPer n c =>
    have := hs c (by simp [Summand.comps])
    rw [summandE, callE, weight, if_pos ⟨rfl, db_isDb hdb⟩, per this.1 this.2]; rfl
  | writesPer n c =>
    have := hs c (by simp [Summand.comps])
    rw [summandE, callE, weight, if_neg (fun h => absurd h.1 (by decide)), if_pos ⟨rfl, db_isDb hdb⟩, per this.1 this.2]; rfl

theorem weight_body {style : Style} (h : style ≠ .plain) {db : List Str} (hdb : DbPath db) {f : GenFn} (hf : f.Ok style) (rt : Runtime) :
    weight exact rt (bodyE style db f) = some ⟨f.cost rt .time, f.cost rt .proof⟩ := by
  obtain ⟨_, _, _, _, hs, hp⟩ := hf
  unfold bodyE GenFn.cost
  have := weight_base h f.time f.proof (fun h => (hp h).1) rt
  have hp' : ∀ s ∈ f.summands, style ≠ .parts → s.proofSize = 0 := fun s hs h => (hp h).2 s hs
  clear hp
  dsimp only
  generalize f.time = t at this
  generalize f.proof = p at this
  generalize weightE style t p = e at this
  generalize f.summands = l at hs hp'
  induction l generalizing e t p with
  | nil => simpa using this
  | cons s l ih =>
    have h1 := weight_summand h hdb s (fun c hc => ((hs s List.mem_cons_self).1 c hc).2) (hp' s List.mem_cons_self) rt
    have h2 := ih _ _ _ (weight_add this h1) (fun s h => hs s (List.mem_cons_of_mem _ h)) (fun s h => hp' s (List.mem_cons_of_mem _ h))
    rw [List.foldl_cons, h2]
    simp [Nat.add_assoc]

theorem legacy_lit (style : Style) (n : Nat) (rt : Runtime) : legacy exact rt (litE style n) = some n := by
  cases style <;> simp [litE, legacy, readNat_digits, exact]

theorem legacy_comp {c : Str} (h1 : c ≠ str% "READ") (h2 : c ≠ str% "WRITE") (rt : Runtime) :
    legacy exact rt (compE .plain c) = some (rt.comp c) := by
  simp [compE, legacy, named, joinStr, h1, h2]

theorem legacy_mul {r a : Expr} {rt : Runtime} {x y : Nat} (hx : legacy exact rt r = some x) (hy : legacy exact rt a = some y) :
    legacy exact rt (callE r (str% "saturating_mul") a) = some (x * y) := by
  rw [callE, legacy, if_neg (fun h => absurd h.1 (by decide)), if_neg (fun h => absurd h.1 (by decide)), if_neg (by decide), if_pos rfl, hx, hy]; rfl

theorem legacy_add {r a : Expr} {rt : Runtime} {x y : Nat} (hx : legacy exact rt r = some x) (hy : legacy exact rt a = some y) :
    legacy exact rt (callE r (str% "saturating_add") a) = some (x + y) := by
  rw [callE, legacy, if_neg (fun h => absurd h.1 (by decide)), if_neg (fun h => absurd h.1 (by decide)), if_pos rfl, hx, hy]; rfl

theorem legacy_base (t p : Nat) (rt : Runtime) : legacy exact rt (weightE .plain t p) = some t := by
  rw [weightE, legacy, legacy_lit]

theorem legacy_summand {db : List Str} (hdb : DbPath db) (s : Summand) (hs : ∀ c ∈ s.comps, c ≠ str% "READ" ∧ c ≠ str% "WRITE") (rt : Runtime) :
    legacy exact rt (summandE .plain db s) = some (s.cost rt .time) := by
  have paren : ∀ n, legacy exact rt (.paren (litE .plain n)) = some n := fun n => by rw [legacy, legacy_lit]
  cases s with
  | slope t p c =>
    have := hs c (by simp [Summand.comps])
    exact legacy_mul (legacy_base t p rt) (legacy_comp this.1 this.2 rt)
  | reads n => rw [summandE, callE, legacy, if_pos ⟨rfl, db_isDb hdb⟩, legacy_lit]; rfl
  | writes n => rw [summandE, callE, legacy, if_neg (fun h => absurd h.1 (by decide)), if_pos ⟨rfl, db_isDb hdb⟩, legacy_lit]; rfl
  | readsPer n c =>
    have := hs c (by simp [Summand.comps])
    rw [summandE, callE, legacy, if_pos ⟨rfl, db_isDb hdb⟩, legacy_mul (paren n) (legacy_comp this.1 this.2 rt)]; rfl
  | writesPer n c =>
    have := hs c (by simp [Summand.comps])
    rw [summandE, callE, legacy, if_neg (fun h => absurd h.1 (by decide)), if_pos ⟨rfl, db_isDb hdb⟩,
      legacy_mul (paren n) (legacy_comp this.1 this.2 rt)]; rfl

theorem legacy_body {db : List Str} (hdb : DbPath db) {f : GenFn} (hf : f.Ok .plain) (rt : Runtime) :
    legacy exact rt (bodyE .plain db f) = some (f.cost rt .time) := by
  obtain ⟨_, _, _, _, hs, _⟩ := hf
  unfold bodyE GenFn.cost
  have := legacy_base f.time f.proof rt
  dsimp only
  generalize hw : weightE .plain f.time f.proof = e at this
  clear hw
  generalize f.time = t at this
  generalize f.summands = l at hs
  induction l generalizing e t with
  | nil => simpa using this
  | cons s l ih =>
    have h1 := legacy_summand hdb s (fun c hc => ((hs s List.mem_cons_self).1 c hc).2) rt
    have h2 := ih _ _ (legacy_add this h1) (fun s h => hs s (List.mem_cons_of_mem _ h))
    rw [List.foldl_cons, h2]
    simp [Nat.add_assoc]

/-! ### They are template bodies -/

theorem lit_t (style : Style) {n : Nat} (h : n ≤ u64Max) : TLit u64Max (litE style n) := by
  have : TLit u64Max (.lit (.int (Nat.toDigits 10 n))) := .lit (readNat_digits n) h
  cases style
  · exact this
  · exact .cast this
  · exact .cast this

theorem comp_t (style : Style) {c : Str} (h1 : c ≠ str% "READ") (h2 : c ≠ str% "WRITE") : TComp (compE style c) := by
  cases style
  · exact .into (.path h1 h2)
  · exact .cast (.path h1 h2)
  · exact .cast (.path h1 h2)

theorem base_t {style : Style} (h : style ≠ .plain) {t p : Nat} (ht : t ≤ u64Max) (hp : p ≤ u64Max) : TBase u64Max (weightE style t p) := by
  cases style
  · exact .parts (by decide) (lit_t .parts ht) (lit_t .parts hp)
  · exact .refTime (by decide) (lit_t .refTime ht)
  · exact absurd rfl h

theorem count_t (style : Style) {n : Nat} {c : Str} (h : n ≤ u64Max) (hc : c ≠ str% "READ" ∧ c ≠ str% "WRITE") :
    TCount u64Max (callE (.paren (litE style n)) (str% "saturating_mul") (compE style c)) :=
  .mul (.paren (lit_t style h)) (comp_t style hc.1 hc.2)

theorem summand_t {style : Style} (h : style ≠ .plain) {db : List Str} (hdb : DbPath db) (s : Summand)
    (hs : ∀ c ∈ s.comps, c ≠ str% "READ" ∧ c ≠ str% "WRITE") (hn : ∀ n ∈ s.nums, n ≤ u64Max) : TSummand u64Max (summandE style db s) := by
  cases s with
  | slope t p c =>
    have := hs c (by simp [Summand.comps])
    exact .slope (base_t h (hn t (by simp [Summand.nums])) (hn p (by simp [Summand.nums]))) (comp_t style this.1 this.2)
  | reads n => exact .reads (db_isDb hdb) (.lit (lit_t style (hn n (by simp [Summand.nums]))))
  | writes n => exact .writes (db_isDb hdb) (.lit (lit_t style (hn n (by simp [Summand.nums]))))
  | readsPer n c => exact .reads (db_isDb hdb) (count_t style (hn n (by simp [Summand.nums])) (hs c (by simp [Summand.comps])))
  | writesPer n c => exact .writes (db_isDb hdb) (count_t style (hn n (by simp [Summand.nums])) (hs c (by simp [Summand.comps])))

theorem summand_t1 {db : List Str} (hdb : DbPath db) (s : Summand)
    (hs : ∀ c ∈ s.comps, c ≠ str% "READ" ∧ c ≠ str% "WRITE") (hn : ∀ n ∈ s.nums, n ≤ u64Max) : TSummand1 u64Max (summandE .plain db s) := by
  cases s with
  | slope t p c =>
    have := hs c (by simp [Summand.comps])
    exact .slope (.paren (lit_t .plain (hn t (by simp [Summand.nums])))) (comp_t .plain this.1 this.2)
  | reads n => exact .reads (db_isDb hdb) (.lit (lit_t .plain (hn n (by simp [Summand.nums]))))
  | writes n => exact .writes (db_isDb hdb) (.lit (lit_t .plain (hn n (by simp [Summand.nums]))))
  | readsPer n c => exact .reads (db_isDb hdb) (count_t .plain (hn n (by simp [Summand.nums])) (hs c (by simp [Summand.comps])))
  | writesPer n c => exact .writes (db_isDb hdb) (count_t .plain (hn n (by simp [Summand.nums])) (hs c (by simp [Summand.comps])))

theorem body_t {style : Style} (h : style ≠ .plain) {db : List Str} (hdb : DbPath db) {f : GenFn} (hf : f.Ok style) :
    Template u64Max (bodyE style db f) := by
  obtain ⟨_, _, ht, hp, hs, _⟩ := hf
  unfold bodyE
  have : Template u64Max (weightE style f.time f.proof) := .base (base_t h ht hp)
  generalize weightE style f.time f.proof = e at this
  generalize f.summands = l at hs
  induction l generalizing e with
  | nil => exact this
  | cons s l ih =>
    obtain ⟨h1, h2⟩ := hs s List.mem_cons_self
    exact ih _ (.add this (summand_t h hdb s (fun c hc => (h1 c hc).2) h2)) (fun s h => hs s (List.mem_cons_of_mem _ h))

theorem body_t1 {db : List Str} (hdb : DbPath db) {f : GenFn} (hf : f.Ok .plain) : Template1 u64Max (bodyE .plain db f) := by
  obtain ⟨_, _, ht, hp, hs, _⟩ := hf
  unfold bodyE
  have : Template1 u64Max (weightE .plain f.time f.proof) := .base (.paren (lit_t .plain ht))
  generalize weightE .plain f.time f.proof = e at this
  generalize f.summands = l at hs
  induction l generalizing e with
  | nil => exact this
  | cons s l ih =>
    obtain ⟨h1, h2⟩ := hs s List.mem_cons_self
    exact ih _ (.add this (summand_t1 hdb s (fun c hc => (h1 c hc).2) h2)) (fun s h => hs s (List.mem_cons_of_mem _ h))

/-- Without proof sizes there is no proof size. -/
theorem cost_no_proof {style : Style} (h : style ≠ .parts) {f : GenFn} (hf : f.Ok style) (rt : Runtime) : f.cost rt .proof = 0 := by
  obtain ⟨_, _, _, _, _, hp⟩ := hf
  obtain ⟨h1, h2⟩ := hp h
  rw [GenFn.cost]
  have : (f.summands.map (Summand.cost rt .proof)).sum = 0 := by
    apply List.sum_eq_zero
    simp only [List.mem_map]
    rintro _ ⟨s, hs, rfl⟩
    have := h2 s hs
    cases s <;> simp_all [Summand.cost, Summand.proofSize]
  rw [this, h1]

/-- The equation of a generated body. -/
theorem body_value (style : Style) {db : List Str} (hdb : DbPath db) {f : GenFn} (hf : f.Ok style) :
    ∃ t, parseBody (bodyE style db f) = .ok t ∧ (∀ rt d, cvalue d (Runtime.env rt d) t = f.cost rt d) ∧ Tame (2 ^ 96) t := by
  by_cases h : style = .plain
  · subst h
    obtain ⟨t, ht, hv⟩ := C44_template1 (M := u64Max) (by decide) (body_t1 hdb hf)
    refine ⟨t, ht, fun rt d => ?_, template1_tame (M := u64Max) (body_t1 hdb hf) ht⟩
    cases d with
    | time => exact C43_legacy (legacy_body hdb hf rt) ht
    | proof =>
      rw [cost_no_proof (by decide) hf]
      obtain ⟨m, hm⟩ := template1_err (body_t1 hdb hf)
      rw [parseBody, hm] at ht
      obtain ⟨s, hs, ht⟩ := bind_eq_ok ht
      cases ht
      exact template1_proof (body_t1 hdb hf) hs rt
  · obtain ⟨t, ht, _⟩ := C44_template (M := u64Max) (by decide) (body_t h hdb hf)
    refine ⟨t, ht, fun rt d => ?_, template_tame (M := u64Max) (body_t h hdb hf) (template_expr (by decide) (body_t h hdb hf) ht)⟩
    rw [C43_weight (weight_body h hdb hf rt) (template_weight (body_t h hdb hf) rt).2.2 ht d]
    cases d <;> rfl

/-! ### The equations -/

/-- The equation of a weight. -/
def weightT : Style → Nat → Nat → ChromaticTerm
  | .parts, t, p => .value ⟨t, p⟩
  | _, t, _ => .value ⟨t, 0⟩

/-- The equation of a number of storage accesses. -/
def countT : Style → Nat → ChromaticTerm
  | .parts, n => .scalar n
  | _, n => .value ⟨n, 0⟩

/-- The equation of a summand. -/
def summandT (style : Style) : Summand → ChromaticTerm
  | .slope t p c => .mul (weightT style t p) (.var c)
  | .reads n => .mul (countT style n) (.var (str% "READ"))
  | .writes n => .mul (countT style n) (.var (str% "WRITE"))
  | .readsPer n c => .mul (.mul (.value ⟨n, 0⟩) (.var c)) (.var (str% "READ"))
  | .writesPer n c => .mul (.mul (.value ⟨n, 0⟩) (.var c)) (.var (str% "WRITE"))

/-- The equation of a body. -/
def bodyT (style : Style) (f : GenFn) : ChromaticTerm := f.summands.foldl (fun t s => .add t (summandT style s)) (weightT style f.time f.proof)

theorem lit_value {n : Nat} (h : n ≤ 2 ^ 64 - 1) : litToValue (.int (Nat.toDigits 10 n)) = .ok n := by
  rw [litToValue, parseUInt_of_readNat (readNat_digits n), if_pos (Nat.lt_of_le_of_lt h (by decide))]
  rfl

theorem ps_lit (style : Style) {n : Nat} (h : n ≤ 2 ^ 64 - 1) : parseScalar (litE style n) = .ok (.scalar n) := by
  cases style <;> simp only [litE, parseScalar, lit_value h, Res.bind_ok]

theorem path_one (c : Str) : pathToString [c] (some (str% "::")) = c := by
  simp [pathToString, joinStr]

theorem ps_comp (style : Style) (c : Str) : parseScalar (compE style c) = .ok (.var c) := by
  cases style with
  | parts => rw [compE, ps_into, parseScalar, path_one]
  | _ => rw [compE, parseScalar, parseScalar, path_one]; simp

theorem pe_comp (style : Style) (c : Str) : parseExpression (compE style c) = .ok (.var c) := by
  cases style with
  | parts => rw [compE, pe_into, parseExpression, path_one]
  | _ => rw [compE, parseExpression, parseExpression, path_one]; simp

theorem validate_db {db : List Str} (h : DbPath db) : validateDbCall (.call (.path db) [] false) = .ok () := by
  rcases h with rfl | rfl | rfl <;> decide

theorem pe_weight {style : Style} (h : style ≠ .plain) {t p : Nat} (ht : t ≤ 2 ^ 64 - 1) (hp : p ≤ 2 ^ 64 - 1) :
    parseExpression (weightE style t p) = .ok (weightT style t p) := by
  cases style with
  | parts =>
    rw [weightE, pe_fromParts (by decide), ps_lit .parts ht, ps_lit .parts hp, Res.bind_ok, Res.bind_ok]
    simp only [intoChromatic, scalarIntoTerm, spliceAdd, weightT]
    split
    · rename_i h; simp_all
    · simp
  | refTime => rw [weightE, pe_fromRefTime (by decide), ps_lit .refTime ht, Res.bind_ok]; rfl
  | plain => exact absurd rfl h

theorem prw_lit {style : Style} (h : style ≠ .plain) {n : Nat} (hn : n ≤ 2 ^ 64 - 1) : parseRw (litE style n) = .ok (countT style n) := by
  cases style with
  | parts => rw [litE, parseRw, lit_value hn]; rfl
  | refTime =>
    have := ps_lit .refTime hn
    change parseScalar (.cast (.lit (.int (Nat.toDigits 10 n)))) = _ at this
    show parseRw (.cast (.lit (.int (Nat.toDigits 10 n)))) = _
    rw [parseRw, this]; rfl
    simp
  | plain => exact absurd rfl h

theorem ps_count (style : Style) {n : Nat} (hn : n ≤ 2 ^ 64 - 1) (c : Str) :
    parseScalar (callE (.paren (litE style n)) (str% "saturating_mul") (compE style c)) = .ok (.mul (.scalar n) (.var c)) := by
  rw [callE, ps_mul, parseScalar, ps_lit style hn, ps_comp]; rfl

theorem prw_count (style : Style) {n : Nat} (hn : n ≤ 2 ^ 64 - 1) (c : Str) :
    parseRw (callE (.paren (litE style n)) (str% "saturating_mul") (compE style c)) = .ok (.mul (.value ⟨n, 0⟩) (.var c)) := by
  have := ps_count style hn c
  rw [callE] at this ⊢
  rw [parseRw, this]; rfl
  simp

theorem pe_summand {style : Style} (h : style ≠ .plain) {db : List Str} (hdb : DbPath db) (s : Summand) (hn : ∀ n ∈ s.nums, n ≤ 2 ^ 64 - 1) :
    parseExpression (summandE style db s) = .ok (summandT style s) := by
  cases s with
  | slope t p c =>
    rw [summandE, callE, pe_mul, pe_weight h (hn t (by simp [Summand.nums])) (hn p (by simp [Summand.nums])), pe_comp]; rfl
  | reads n => rw [summandE, callE, pe_reads, validate_db hdb, prw_lit h (hn n (by simp [Summand.nums]))]; rfl
  | writes n => rw [summandE, callE, pe_writes, validate_db hdb, prw_lit h (hn n (by simp [Summand.nums]))]; rfl
  | readsPer n c =>
    have := prw_count style (hn n (by simp [Summand.nums])) c
    rw [summandE, callE, pe_reads, validate_db hdb, this]; rfl
  | writesPer n c =>
    have := prw_count style (hn n (by simp [Summand.nums])) c
    rw [summandE, callE, pe_writes, validate_db hdb, this]; rfl

theorem ps_summand {db : List Str} (hdb : DbPath db) (s : Summand) (hn : ∀ n ∈ s.nums, n ≤ 2 ^ 64 - 1) :
    ∃ t, parseScalar (summandE .plain db s) = .ok t ∧ intoChromatic .time t = summandT .plain s := by
  cases s with
  | slope t p c =>
    refine ⟨.mul (.scalar t) (.var c), ?_, rfl⟩
    rw [summandE, callE, ps_mul, weightE, parseScalar, ps_lit .plain (hn t (by simp [Summand.nums])), ps_comp]; rfl
  | reads n =>
    refine ⟨.mul (.scalar n) (.var (str% "READ")), ?_, rfl⟩
    rw [summandE, callE, ps_reads, validate_db hdb, ps_lit .plain (hn n (by simp [Summand.nums]))]; rfl
  | writes n =>
    refine ⟨.mul (.scalar n) (.var (str% "WRITE")), ?_, rfl⟩
    rw [summandE, callE, ps_writes, validate_db hdb, ps_lit .plain (hn n (by simp [Summand.nums]))]; rfl
  | readsPer n c =>
    refine ⟨.mul (.mul (.scalar n) (.var c)) (.var (str% "READ")), ?_, rfl⟩
    have := ps_count .plain (hn n (by simp [Summand.nums])) c
    rw [summandE, callE, ps_reads, validate_db hdb, this]; rfl
  | writesPer n c =>
    refine ⟨.mul (.mul (.scalar n) (.var c)) (.var (str% "WRITE")), ?_, rfl⟩
    have := ps_count .plain (hn n (by simp [Summand.nums])) c
    rw [summandE, callE, ps_writes, validate_db hdb, this]; rfl

theorem pe_fold {style : Style} (h : style ≠ .plain) {db : List Str} (hdb : DbPath db) (l : List Summand) (hn : ∀ s ∈ l, ∀ n ∈ s.nums, n ≤ 2 ^ 64 - 1)
    {e : Expr} {t : ChromaticTerm} (he : parseExpression e = .ok t) :
    parseExpression (l.foldl (fun e s => callE e (str% "saturating_add") (summandE style db s)) e) = .ok (l.foldl (fun t s => .add t (summandT style s)) t) := by
  induction l generalizing e t with
  | nil => exact he
  | cons s l ih =>
    refine ih (fun s' hs => hn s' (List.mem_cons_of_mem _ hs)) ?_
    show parseExpression (callE e _ (summandE style db s)) = _
    rw [callE, pe_add, he, pe_summand h hdb s (hn s List.mem_cons_self)]; rfl

theorem ps_fold {db : List Str} (hdb : DbPath db) (l : List Summand) (hn : ∀ s ∈ l, ∀ n ∈ s.nums, n ≤ 2 ^ 64 - 1)
    {e : Expr} {t : SimpleTerm} {u : ChromaticTerm} (he : parseScalar e = .ok t) (hu : intoChromatic .time t = u) :
    ∃ t, parseScalar (l.foldl (fun e s => callE e (str% "saturating_add") (summandE .plain db s)) e) = .ok t ∧
      intoChromatic .time t = l.foldl (fun t s => .add t (summandT .plain s)) u := by
  induction l generalizing e t u with
  | nil => exact ⟨t, he, hu⟩
  | cons s l ih =>
    obtain ⟨v, hv, hv'⟩ := ps_summand hdb s (hn s List.mem_cons_self)
    refine ih (t := .add t v) (fun s' hs => hn s' (List.mem_cons_of_mem _ hs)) ?_ ?_
    · show parseScalar (callE e _ (summandE .plain db s)) = _
      rw [callE, ps_add, he, hv]; rfl
    · rw [intoChromatic, hu, hv']

/-- The equation that is read from a generated body. -/
theorem body_parse (style : Style) {db : List Str} (hdb : DbPath db) {f : GenFn} (hf : f.Ok style) : parseBody (bodyE style db f) = .ok (bodyT style f) := by
  have hn : ∀ s ∈ f.summands, ∀ n ∈ s.nums, n ≤ 2 ^ 64 - 1 := fun s hs => (hf.2.2.2.2.1 s hs).2
  by_cases h : style = .plain
  · subst h
    obtain ⟨m, hm⟩ := template1_err (body_t1 hdb hf)
    obtain ⟨t, ht, ht'⟩ := ps_fold hdb f.summands hn (e := weightE .plain f.time f.proof) (t := .scalar f.time) (u := weightT .plain f.time f.proof)
      (by rw [weightE, parseScalar, ps_lit .plain hf.2.2.1]) rfl
    rw [parseBody, hm]
    show (parseScalar (bodyE .plain db f) >>= _) = _
    rw [bodyE, ht, Res.bind_ok, ht']
    rfl
  · rw [parseBody, bodyE, pe_fold h hdb f.summands hn (pe_weight h hf.2.2.1 hf.2.2.2.1)]
    rfl

/-! ### The documentation -/

theorem docText_exists {s : Str} (h : ∀ c ∈ s, c = '\t' ∨ (32 ≤ c.toNat ∧ c.toNat < 127)) : ∃ t, DocText s t := by
  induction s with
  | nil => exact ⟨_, .nil⟩
  | cons c s ih =>
    obtain ⟨t, ht⟩ := ih fun d hd => h d (List.mem_cons_of_mem _ hd)
    by_cases h1 : c = '"'
    · subst h1; exact ⟨_, .quote ht⟩
    · by_cases h2 : c = '\\'
      · subst h2; exact ⟨_, .backslash ht⟩
      · rcases h c List.mem_cons_self with h3 | h3
        · subst h3; exact ⟨_, .tab ht⟩
        · exact ⟨_, .plain ⟨h3.1, h3.2, h1, h2⟩ ht⟩

theorem docText_plain {s : Str} (h : ∀ c ∈ s, 32 ≤ c.toNat ∧ c.toNat < 127 ∧ c ≠ '"' ∧ c ≠ '\\') : DocText s s := by
  induction s with
  | nil => exact .nil
  | cons c s ih => exact .plain (h c List.mem_cons_self) (ih fun d hd => h d (List.mem_cons_of_mem _ hd))

theorem docText_open {s t r : Str} (h : DocText s t) (ht : t = '[' :: r) : ∃ s', s = '[' :: s' := by
  cases h with
  | nil => cases ht
  | quote => cases ht
  | backslash => cases ht
  | newline => cases ht
  | tab => cases ht
  | plain => cases ht; exact ⟨_, rfl⟩

/-- Escaping does not introduce a backtick followed by a bracket. -/
theorem docText_tick {s t : Str} (h : DocText s t) (ht : (str% "`[") <:+: t) : (str% "`[") <:+: s := by
  induction h with
  | nil => exact ht
  | quote _ ih =>
    rw [List.infix_cons_iff, List.infix_cons_iff] at ht
    rcases ht with ht | ht | ht
    · obtain ⟨_, ht⟩ := ht; cases ht
    · obtain ⟨_, ht⟩ := ht; cases ht
    · exact List.infix_cons (ih ht)
  | backslash _ ih =>
    rw [List.infix_cons_iff, List.infix_cons_iff] at ht
    rcases ht with ht | ht | ht
    · obtain ⟨_, ht⟩ := ht; cases ht
    · obtain ⟨_, ht⟩ := ht; cases ht
    · exact List.infix_cons (ih ht)
  | newline _ ih =>
    rw [List.infix_cons_iff, List.infix_cons_iff] at ht
    rcases ht with ht | ht | ht
    · obtain ⟨_, ht⟩ := ht; cases ht
    · obtain ⟨_, ht⟩ := ht; cases ht
    · exact List.infix_cons (ih ht)
  | tab _ ih =>
    rw [List.infix_cons_iff, List.infix_cons_iff] at ht
    rcases ht with ht | ht | ht
    · obtain ⟨_, ht⟩ := ht; cases ht
    · obtain ⟨_, ht⟩ := ht; cases ht
    · exact List.infix_cons (ih ht)
  | plain hc h ih =>
    rw [List.infix_cons_iff] at ht
    rcases ht with ⟨r, ht⟩ | ht
    · simp only [List.cons_append, List.nil_append] at ht
      injection ht with h1 h2
      obtain ⟨s', rfl⟩ := docText_open h h2.symm
      subst h1
      exact ⟨[], s', rfl⟩
    · exact List.infix_cons (ih ht)

theorem quoted_tick {t : Str} (h : (str% "`[") <:+: '"' :: (t ++ ['"'])) : (str% "`[") <:+: t := by
  rw [List.infix_cons_iff] at h
  rcases h with ⟨_, h⟩ | h
  · cases h
  · obtain ⟨a, b, h⟩ := h
    rcases List.eq_nil_or_concat b with rfl | ⟨b', x, rfl⟩
    · rw [List.append_nil] at h
      have := congrArg List.getLast? h
      simp at this
    · rw [List.concat_eq_append, ← List.append_assoc] at h
      obtain ⟨h, _⟩ := List.append_inj' h rfl
      exact ⟨a, b', h⟩

/-- What is to be read from a line of documentation. -/
def lineRange : DocLine → Option (Str × ComponentRange)
  | .range c lo hi => some (c, ⟨lo, hi⟩)
  | .text _ => none

theorem wordChar_ascii {c : Char} (h : WordChar c) : 48 ≤ c.toNat ∧ c.toNat < 123 ∧ c ≠ '\\' ∧ c.isAlphanum = true ∨ c = '_' := by
  unfold WordChar at h
  rcases h with h | h | h
  · left
    have h' := h
    simp only [Char.isAlpha, Char.isUpper, Char.isLower, Bool.or_eq_true, decide_eq_true_eq, Bool.and_eq_true] at h'
    refine ⟨?_, ?_, ?_, by simp [Char.isAlphanum, h]⟩
    · rcases h' with h' | h'
      · have := UInt32.le_iff_toNat_le.1 h'.1; change 65 ≤ c.toNat at this; omega
      · have := UInt32.le_iff_toNat_le.1 h'.1; change 97 ≤ c.toNat at this; omega
    · rcases h' with h' | h'
      · have := UInt32.le_iff_toNat_le.1 h'.2; change c.toNat ≤ 90 at this; omega
      · have := UInt32.le_iff_toNat_le.1 h'.2; change c.toNat ≤ 122 at this; omega
    · rintro rfl; revert h; decide
  · left
    have h' := h
    simp only [Char.isDigit, decide_eq_true_eq, Bool.and_eq_true] at h'
    have h1 := UInt32.le_iff_toNat_le.1 h'.1
    have h2 := UInt32.le_iff_toNat_le.1 h'.2
    change 48 ≤ c.toNat at h1
    change c.toNat ≤ 57 at h2
    refine ⟨h1, by omega, ?_, by simp [Char.isAlphanum, h]⟩
    rintro rfl; revert h; decide
  · exact .inr h

theorem wordChar_printable {c : Char} (h : WordChar c) : 32 ≤ c.toNat ∧ c.toNat < 127 ∧ c ≠ '"' ∧ c ≠ '\\' := by
  rcases wordChar_ascii h with h | rfl
  · refine ⟨by omega, by omega, ?_, h.2.2.1⟩
    rintro rfl
    exact absurd h.1 (by decide)
  · decide

theorem wordChar_word (cc : CharClass) {c : Char} (h : WordChar c) : cc.word c = true := by
  have h' := wordChar_printable h
  rw [cc.word_ascii c (by omega)]
  rcases wordChar_ascii h with h | rfl
  · simp [h.2.2.2]
  · rfl

theorem word_chars {x : Str} (h : Word x) : x ≠ [] ∧ ∀ c ∈ x, WordChar c := by
  obtain ⟨c, r, rfl, h1, h2⟩ := h
  refine ⟨by simp, fun d hd => ?_⟩
  rcases List.mem_cons.1 hd with rfl | hd
  · rcases h1 with h1 | h1
    · exact .inl h1
    · exact .inr (.inr h1)
  · exact h2 d hd

theorem digits_word (n : Nat) : ∀ c ∈ Nat.toDigits 10 n, WordChar c := fun c hc =>
  .inr (.inl (Nat.isDigit_of_mem_toDigits (by decide) (by decide) hc))

/-- A line of documentation is read as it is meant. -/
theorem doc_read (cc : CharClass) (l : DocLine) (h : l.Ok) :
    ∃ t, DocText l.line t ∧ parseComponentAttr cc (.nameValue [str% "doc"] ('"' :: (t ++ ['"']))) = .ok (lineRange l) := by
  cases l with
  | range c lo hi =>
    obtain ⟨hc, h1, h2⟩ := h
    obtain ⟨hne, hc⟩ := word_chars hc
    refine ⟨_, docText_plain ?_, ?_⟩
    · intro x hx
      simp only [DocLine.line, List.mem_append] at hx
      have key : ∀ l : Str, (∀ x ∈ l, 32 ≤ x.toNat ∧ x.toNat < 127 ∧ x ≠ '"' ∧ x ≠ '\\') → x ∈ l →
        32 ≤ x.toNat ∧ x.toNat < 127 ∧ x ≠ '"' ∧ x ≠ '\\' := fun l h hx => h x hx
      rcases hx with (((((hx | hx) | hx) | hx) | hx) | hx) | hx
      · exact key _ (by decide) hx
      · exact wordChar_printable (hc _ hx)
      · exact key _ (by decide) hx
      · exact wordChar_printable (digits_word _ _ hx)
      · exact key _ (by decide) hx
      · exact wordChar_printable (digits_word _ _ hx)
      · exact key _ (by decide) hx
    · have := C47_generated_line cc hne (fun x hx => wordChar_word cc (hc x hx)) h1 h2
      rw [rangeLine] at this
      rw [lineRange, ← this, DocLine.line]
      simp [natToStr]
  | text s =>
    obtain ⟨h1, h2⟩ := h
    obtain ⟨t, ht⟩ := docText_exists h2
    refine ⟨t, ht, ?_⟩
    rw [lineRange]
    refine C47_ignored cc _ fun path s' he _ pre name lo hi ha => h1 (docText_tick ht (quoted_tick ?_))
    cases he
    obtain ⟨mid, sp, post, he, _⟩ := ha
    rw [he]
    exact ⟨pre ++ str% "`" ++ name ++ str% "`" ++ mid, lo ++ str% "," ++ sp ++ hi ++ str% "]`" ++ post, by simp⟩

theorem docs_read (cc : CharClass) (l : List DocLine) (h : ∀ x ∈ l, x.Ok) :
    ∃ attrs, AttrTrees attrs (l.map fun x => .tok (.doc false x.line)) ∧ (∀ acc, ∃ m, collectRanges cc acc attrs = .ok m) ∧
      ∀ c, lastAnnotation cc c attrs = rangeIn c l := by
  induction l with
  | nil => exact ⟨[], .nil, fun acc => ⟨acc, rfl⟩, fun _ => rfl⟩
  | cons x l ih =>
    obtain ⟨attrs, h1, h2, h3⟩ := ih fun y hy => h y (List.mem_cons_of_mem _ hy)
    obtain ⟨t, h4, h5⟩ := doc_read cc x (h x List.mem_cons_self)
    refine ⟨_, .doc h4 h1, fun acc => ?_, fun c => ?_⟩
    · rw [collectRanges, h5]
      cases x with
      | range c lo hi => exact h2 _
      | text s => exact h2 _
    · rw [lastAnnotation, h5, h3]
      cases x with
      | range y lo hi =>
        simp only [lineRange, rangeIn]
        cases rangeIn c l <;> simp
      | text s =>
        simp only [lineRange, rangeIn]
        cases rangeIn c l <;> rfl

/-! ### Functions and files -/

/-- What is read from a function, that its equation is tame, and the equation. -/
def ReadAs' (style : Style) (pallet : Str) (f : GenFn) (x : ChromaticExtrinsic) : Prop :=
  ReadAs pallet f x ∧ Tame (2 ^ 96) x.term ∧ x.term = bodyT style f

theorem stmts_one {e : Expr} {body semi : List RTree} (he : Spec.Sum e body) (hs : semi = [] ∨ semi = [sy .semi]) :
    StmtsTrees [.expr e] (body ++ semi) := by
  rcases hs with rfl | rfl
  · rw [List.append_nil]
    exact .last he
  · exact .expr he .nil

theorem fn_read (cc : CharClass) (pallet : Str) {style : Style} {f : GenFn} (hf : f.Ok style) {ts : List RTree} (h : GenFnTrees style f ts) :
    ∃ i x, FnTrees i ts ∧ Extracted cc pallet i x ∧ ReadAs' style pallet f x := by
  obtain ⟨db, vis, gs, ps, semi, hdb, hv, hg, hsemi, rfl⟩ := h
  obtain ⟨t, ht, hval, htame⟩ := body_value style hdb hf
  have heq : t = bodyT style f := Res.ok.inj (ht.symm.trans (body_parse style hdb hf))
  obtain ⟨hn, hd, _, _, hs, _⟩ := hf
  obtain ⟨attrs, ha, hc, hr⟩ := docs_read cc f.docs hd
  obtain ⟨m, hm⟩ := hc []
  have hp : parseComponentAttrs cc attrs = .ok (if m.isEmpty then none else some m) := by
    rw [parseComponentAttrs, hm]; rfl
  have hfn := FnTrees.mk (ps := ps) hn ha hv .nil hg (.some (type_of (x := str% "Weight") (by decide))) .none
    (stmts_one (body_sum style hdb f fun s h c hc => ((hs s h).1 c hc).1) hsemi)
  refine ⟨_, ⟨f.name, pallet, t, if m.isEmpty then none else some m⟩,
    (by simpa [List.append_assoc] using hfn),
    ⟨⟨false, [str% "Weight"], str% "Weight", [], rfl, rfl, rfl⟩, rfl, rfl, ⟨_, rfl, ht⟩, hp⟩, ⟨rfl, rfl, hval, fun c => ?_⟩, htame, heq⟩
  rw [← hr c]
  exact C47_last_wins cc hp c

theorem fns_read (cc : CharClass) (pallet : Str) {style : Style} {fns : List GenFn} {us : List RTree} (h : GenFnsTrees style fns us)
    (hok : ∀ f ∈ fns, f.Ok style) :
    ∃ is xs, MembersTrees (is.map .fn) us ∧ List.Forall₂ (Extracted cc pallet) is xs ∧ List.Forall₂ (ReadAs' style pallet) fns xs := by
  induction h with
  | nil => exact ⟨[], [], .nil, .nil, .nil⟩
  | cons hf _ ih =>
    obtain ⟨is, xs, h1, h2, h3⟩ := ih fun f hf => hok f (List.mem_cons_of_mem _ hf)
    obtain ⟨i, x, k1, k2, k3⟩ := fn_read cc pallet (hok _ List.mem_cons_self) hf
    exact ⟨i :: is, x :: xs, .fn k1 h1, .cons k2 h2, .cons k3 h3⟩

theorem functions_map (l : List ImplFn) : functions (l.map .fn) = l := by
  induction l with
  | nil => rfl
  | cons f l ih => rw [List.map_cons, functions, ih]

theorem itemsTrees_append {l m : List Item} {ts us : List RTree} (h : ItemsTrees l ts) (h' : ItemsTrees m us) : ItemsTrees (l ++ m) (ts ++ us) := by
  match h with
  | .nil => exact h'
  | .cons (ts := ts1) ha hv hi hl =>
    have := ItemsTrees.cons ha hv hi (itemsTrees_append hl h')
    simpa [List.append_assoc] using this

theorem file_read (cc : CharClass) (pallet : Str) {style : Style} {fns : List GenFn} {s : Str} (h : GenFile style fns s) (hne : fns ≠ [])
    (hok : ∀ f ∈ fns, f.Ok style) :
    ∃ exts, parseContent rustSyn cc pallet s = .ok exts ∧ List.Forall₂ (ReadAs' style pallet) fns exts := by
  obtain ⟨inner, before, at', vis, gs, trs, tys, ws, inner', us, after, skipped, others, attrs, trait, self, hi, hb, hskip, hat, hv, hg, htr, hty, hself,
    hws, hin, hus, hafter, hproper, hlay⟩ := h
  obtain ⟨is, xs, h1, h2, h3⟩ := fns_read cc pallet hus hok
  have himpl : ItemTrees (.impl self (is.map .fn))
      (id' (str% "impl") :: (gs ++ trs ++ id' (str% "for") :: (tys ++ ws ++ [.group .brace (inner' ++ us)]))) :=
    by simpa [List.append_assoc] using ItemTrees.impl (.inl rfl) hg (.some htr) hty hws hin h1
  have hitems : ItemsTrees (skipped ++ (.impl self (is.map .fn) :: others)) _ := itemsTrees_append hb (.cons hat hv himpl hafter)
  have hsyn : rustSyn s = .ok (skipped ++ (.impl self (is.map .fn) :: others)) := by
    refine rustSyn_fileText ⟨inner, _, hi, hitems, ?_, ?_⟩
    · simpa [List.append_assoc] using hproper
    · simpa [List.append_assoc] using hlay
  refine ⟨xs, ?_, h3⟩
  rw [parseContent, hsyn]
  refine (firstOk_iff _ _ _ _).2 ⟨skipped, _, others, rfl, (handleItem_iff ..).2 ⟨_, _, rfl, hself, ?_, ?_⟩, ?_⟩
  · rw [functions_map]
    rintro rfl
    cases h2
    cases h3
    exact hne rfl
  · rw [functions_map]; exact h2
  · intro j hj
    cases j with
    | impl ty its =>
      have hty := hskip _ hj ty its rfl
      rcases checkSelfTy_clean ty with ⟨x, e⟩ | ⟨m, e⟩
      · exact absurd ((C46_eligible ty).1 e) hty
      · exact ⟨m, by rw [handleItem, e]; rfl⟩
    | _ => exact ⟨_, rfl⟩

end Gen

/-- C79: from the text of a generated weight file the tool reads exactly the functions that the file is about: one call per function, in order, with
its name, the documented ranges, and an equation that has, for all parameters and storage costs, the value that the numbers in the file add up to. -/
theorem C79_weight_file (cc : CharClass) (pallet : Str) {style : Style} {fns : List GenFn} {s : Str} (h : GenFile style fns s) (hne : fns ≠ [])
    (hok : ∀ f ∈ fns, f.Ok style) : ∃ exts, parseContent rustSyn cc pallet s = .ok exts ∧ List.Forall₂ (ReadAs pallet) fns exts := by
  obtain ⟨exts, h1, h2⟩ := Gen.file_read cc pallet h hne hok
  exact ⟨exts, h1, h2.imp fun _ _ h => h.1⟩

/-- C79: white space, line breaks and comments do not matter: two texts with the same tokens are read alike, whichever file it is.  (Only the message for a
text that is not a Rust program differs, since it has the text.) -/
theorem C79_layout {ts : List RTok} {s s' : Str} (h : Layout ts s) (h' : Layout ts s') :
    rustSyn s = rustSyn s' ∧ (∀ cc pallet, (∃ items, rustSyn s = .ok items ∧ parseContent rustSyn cc pallet s = parseContent rustSyn cc pallet s') ∨
      ∃ e m m', rustSyn s = .error e ∧ parseContent rustSyn cc pallet s = .err m ∧ parseContent rustSyn cc pallet s' = .err m') := by
  have e : rustSyn s = rustSyn s' := by
    rw [rustSyn, rustSyn, RustText.readItems, RustText.readItems, lex_layout h, lex_layout h']
  refine ⟨e, fun cc pallet => ?_⟩
  rw [parseContent, parseContent, ← e]
  cases rustSyn s with
  | ok items => exact .inl ⟨items, rfl, rfl⟩
  | error m => exact .inr ⟨m, _, _, rfl, rfl, rfl⟩

/-! ### A concrete file -/

/-- The two functions of the example; the slope of the first one is a parameter. -/
def exGenFns (slope : Nat) : List GenFn :=
  [{ name := str% "transfer",
     docs := [.text (str% " Storage: `System::Account` (r:1 w:1)"), .range (str% "n") 1 1000],
     time := 12345000, proof := 3593, summands := [.slope slope 3 (str% "n"), .reads 1, .writesPer 2 (str% "n")] },
   { name := str% "burn", docs := [], time := 5, proof := 0, summands := [] }]

/-- The text of the example: a generated file with comments, line breaks, underscores in the numbers and a module after the weights.  The slope, as it
is written, is a parameter. -/
def exGenText (slope : Str) : Str :=
  str% "//! Autogenerated weights for `pallet_balances`\n\n#![cfg_attr(rustfmt, rustfmt_skip)]\n#![allow(unused_parens)]\n\nuse frame_support::{traits::Get, weights::Weight};\nuse sp_std::marker::PhantomData;\n\n/// Weight functions for `pallet_balances`.\npub struct WeightInfo<T>(PhantomData<T>);\nimpl<T: frame_system::Config> pallet_balances::WeightInfo for WeightInfo<T> {\n\t/// Storage: `System::Account` (r:1 w:1)\n\t/// The range of component `n` is `[1, 1000]`.\n\tfn transfer(n: u32, ) -> Weight {\n\t\t// Minimum execution time: 12_000 nanoseconds.\n\t\tWeight::from_parts(12_345_000, 3593)\n\t\t\t// Standard Error: 1\n\t\t\t.saturating_add(Weight::from_parts(" ++
  slope ++
  str% ", 3).saturating_mul(n.into()))\n\t\t\t.saturating_add(T::DbWeight::get().reads(1_u64))\n\t\t\t.saturating_add(T::DbWeight::get().writes((2_u64).saturating_mul(n.into())))\n\t}\n\tfn burn() -> Weight { Weight::from_parts(005, 0) }\n}\n\nmod tests { }\n"

/-- The tokens of the example before the weights, and their parts. -/
def exGenInner : List RTree :=
  [.tok (.doc true (str% " Autogenerated weights for `pallet_balances`")), sy .hash, sy .bang, .group .bracket [id' (str% "cfg_attr"),
    .group .paren [id' (str% "rustfmt"), sy .comma, id' (str% "rustfmt_skip")]], sy .hash, sy .bang,
    .group .bracket [id' (str% "allow"), .group .paren [id' (str% "unused_parens")]]]
/-- What is imported. -/
def exGenUse1 : List RTree := [id' (str% "frame_support"), sy .path, .group .brace [id' (str% "traits"), sy .path, id' (str% "Get"), sy .comma,
  id' (str% "weights"), sy .path, id' (str% "Weight")]]
/-- What is imported. -/
def exGenUse2 : List RTree := [id' (str% "sp_std"), sy .path, id' (str% "marker"), sy .path, id' (str% "PhantomData")]
/-- The struct. -/
def exGenStruct : List RTree := [id' (str% "WeightInfo"), sy .lt, id' (str% "T"), sy .gt, .group .paren [id' (str% "PhantomData"), sy .lt, id' (str% "T"), sy .gt]]
/-- Bounds of the type parameter. -/
def exGenBound : List RTree := [id' (str% "T"), sy .colon, id' (str% "frame_system"), sy .path, id' (str% "Config")]
/-- Parameters of the first function. -/
def exGenParams : List RTree := [id' (str% "n"), sy .colon, id' (str% "u32"), sy .comma]

/-- The tokens of the example. -/
def exGenTrees (slope : Nat) : List RTree :=
  let fnTrees (f : GenFn) (ps : List RTree) := f.docs.map (fun l => .tok (.doc false l.line)) ++ [] ++ id' (str% "fn") :: id' f.name ::
      ([] ++ [.group .paren ps, sy .arrow, id' (str% "Weight"), .group .brace (bodyTrees .parts [str% "T", str% "DbWeight", str% "get"] f ++ [])])
  let us := match exGenFns slope with
    | [f, g] => fnTrees f exGenParams ++ (fnTrees g [] ++ [])
    | _ => []
  exGenInner ++ ((([] ++ [] ++ (id' (str% "use") :: (exGenUse1 ++ [sy .semi])) ++ ([] ++ [] ++ (id' (str% "use") :: (exGenUse2 ++ [sy .semi])) ++
      ([.tok (.doc false (str% " Weight functions for `pallet_balances`."))] ++ [id' (str% "pub")] ++ (id' (str% "struct") :: (exGenStruct ++ [sy .semi])) ++ []))) ++
    ([] ++ [] ++ id' (str% "impl") :: ((sy .lt :: (exGenBound ++ [sy .gt])) ++ ([id' (str% "pallet_balances"), sy .path, id' (str% "WeightInfo")] ++ []) ++
      id' (str% "for") :: (id' (str% "WeightInfo") :: (sy .lt :: ([id' (str% "T")] ++ [sy .gt])) ++ [.group .brace us])) ++
    ([] ++ [] ++ [id' (str% "mod"), id' (str% "tests"), .group .brace ([] ++ [])] ++ []))))

theorem exGen_file {slope : Nat} {t : Str} (hp : proper (exGenTrees slope) = true) (h : LayoutCheck.layoutB (toksOf (exGenTrees slope)) (exGenText t) = true) :
    GenFile .parts (exGenFns slope) (exGenText t) := by
  refine ⟨exGenInner, _, [], [], _, _, _, [], [], _, _, [.other, .other, .other], [.mod (str% "tests") (some [])], [],
    .path false [str% "pallet_balances", str% "WeightInfo"], .path false [str% "WeightInfo"], .doc (.attr (.attr .nil)), ?_, by simp, .nil, .none, .some ?_,
    .path (.cons ?_ (.one ?_)) .none, .path (.one (Gen.name_of (by decide))) (.some (a := [id' (str% "T")]) ?_), .inr (.inl rfl), .none, .nil,
    ?_, .cons .nil .none (.mod ?_ .nil .nil) .nil, hp, LayoutCheck.layoutB_sound h⟩
  · refine .cons .nil .none (.use (.inl rfl) ?_) (.cons .nil .none (.use (.inl rfl) ?_) (.cons (.doc (Gen.docText_plain ?_) .nil) .pub
      (.struct (by decide) ?_) .nil))
    · simp [NoSemi, exGenUse1]
    · simp [NoSemi, exGenUse2]
    · decide
    · simp [NoBody, exGenStruct]
  · repeat' first | exact .nil | refine .other ⟨by simp, by simp⟩ ?_
  · exact ⟨⟨'p', _, rfl, by decide, by unfold WordChar; decide⟩, by decide⟩
  · exact ⟨⟨'W', _, rfl, by decide, by unfold WordChar; decide⟩, by decide⟩
  · exact .other ⟨by simp, by simp⟩ .nil
  · exact .cons ⟨_, [], [], exGenParams, [], .inl rfl, .none, .none, .inl rfl, rfl⟩ (.cons ⟨_, [], [], [], [], .inl rfl, .none, .none, .inl rfl, rfl⟩ .nil)
  · exact ⟨⟨'t', _, rfl, by decide, by unfold WordChar; decide⟩, by decide⟩

theorem exGen_7 : GenFile .parts (exGenFns 7000000) (exGenText (str% "7_000_000")) := exGen_file (by decide +kernel) (by decide +kernel)
theorem exGen_9 : GenFile .parts (exGenFns 9000000) (exGenText (str% "9_000000_u64")) := exGen_file (by decide +kernel) (by decide +kernel)

theorem exGen_ok {slope : Nat} (h : slope ≤ 2 ^ 64 - 1) : ∀ f ∈ exGenFns slope, f.Ok .parts := by
  have hn : Name (str% "n") := ⟨⟨'n', _, rfl, by decide, by unfold WordChar; decide⟩, by decide⟩
  intro f hf
  simp only [exGenFns, List.mem_cons, List.not_mem_nil, or_false] at hf
  rcases hf with rfl | rfl
  · refine ⟨⟨⟨'t', _, rfl, by decide, by unfold WordChar; decide⟩, by show (str% "transfer") ∉ reserved; decide⟩, ?_,
      by show 12345000 ≤ _; decide, by show 3593 ≤ _; decide, ?_, fun h => absurd rfl h⟩
    · intro l hl
      simp only [List.mem_cons, List.not_mem_nil, or_false] at hl
      rcases hl with rfl | rfl
      · exact ⟨by decide, by decide⟩
      · exact ⟨⟨'n', _, rfl, by decide, by unfold WordChar; decide⟩, by decide, by decide⟩
    · intro s hs
      simp only [List.mem_cons, List.not_mem_nil, or_false] at hs
      rcases hs with rfl | rfl | rfl
      · exact ⟨fun c hc => by cases List.mem_singleton.1 hc; exact ⟨hn, by decide, by decide⟩, by simpa [Summand.nums] using h⟩
      · exact ⟨by simp [Summand.comps], by simp [Summand.nums]⟩
      · exact ⟨fun c hc => by cases List.mem_singleton.1 hc; exact ⟨hn, by decide, by decide⟩, by simp [Summand.nums]⟩
  · exact ⟨⟨⟨'b', _, rfl, by decide, by unfold WordChar; decide⟩, by decide⟩, by simp, by decide, by decide, by simp, fun h => absurd rfl h⟩

/-- The text is read as two calls; `transfer` with `n = 10` costs 12345000 + 70000000 + one read + twenty writes. -/
example : ∃ x y, parseContent rustSyn asciiClass (str% "balances") (exGenText (str% "7_000_000")) = .ok [x, y] ∧
    ReadAs (str% "balances") ((exGenFns 7000000)[0]) x ∧ ReadAs (str% "balances") ((exGenFns 7000000)[1]) y := by
  obtain ⟨exts, h1, h2⟩ := C79_weight_file asciiClass (str% "balances") exGen_7 (by decide) (exGen_ok (by decide))
  cases h2 with
  | cons a h2 => cases h2 with
    | cons b h2 => cases h2; exact ⟨_, _, h1, a, b⟩

example : ((exGenFns 7000000)[0]).cost ⟨fun _ => 10, 25000000, 100000000⟩ .time = 2107345000 ∧
    ((exGenFns 7000000)[0]).cost ⟨fun _ => 10, 25000000, 100000000⟩ .proof = 3623 ∧ rangeIn (str% "n") ((exGenFns 7000000)[0]).docs = some ⟨1, 1000⟩ := by decide

/-- Two layouts of the same tokens: the whole file on one line, and the file with comments. -/
example : Layout [.ident (str% "use"), .ident (str% "a"), .sym .semi] (str% "use a;") ∧
    Layout [.ident (str% "use"), .ident (str% "a"), .sym .semi] (str% "// nothing here\nuse\n\ta ; // done\n") :=
  ⟨LayoutCheck.layoutB_sound (by decide), LayoutCheck.layoutB_sound (by decide)⟩

/-! ### The further parts of the grammar -/

/-- Comments in comments are skipped with them. -/
example : Blank (str% "/* a /* b */ **/ ") := by
  have hb : BlockText (str% " b ") := .char (by simp) (by simp) (.char (by simp) (by simp) (.char (by simp) (by simp) .nil))
  have hs : BlockText (str% " *") := .char (by simp) (by simp) (.char (by simp) (fun _ => nofun) .nil)
  refine .block (t := str% " a /* b */ *") (.char (by simp) (by simp) (.char (by simp) (by simp) (.char (by simp) (by simp) (.nested hb hs)))) ?_
    (.white (.inl rfl) .nil)
  rintro c r h
  cases h
  exact ⟨by decide, fun h => absurd h (by decide)⟩

/-- The tokens of a file with a function in front and an implementation with all kinds of members. -/
def exOddBody : List RTree := id' (str% "let") :: ([id' (str% "x"), sy .eq, .tok (.int (str% "1"))] ++ sy .semi :: [id' (str% "x")])
def exOddMethod : List RTree :=
  [] ++ [] ++ [id' (str% "unsafe")] ++ id' (str% "fn") :: id' (str% "g") :: ([] ++ .group .paren [] :: ([] ++ [] ++ [.group .brace exOddBody]))
def exOddConst : List RTree :=
  [] ++ [] ++ id' (str% "const") :: id' (str% "A") :: ([sy .colon, id' (str% "u8"), sy .eq, .tok (.int (str% "1"))] ++ [sy .semi])
def exOddWhere : List RTree := id' (str% "where") :: [id' (str% "u8"), sy .colon, id' (str% "Copy")]
def exOddImpl : List RTree :=
  [id' (str% "unsafe")] ++ id' (str% "impl") :: ([] ++ ([] ++ ([.group .paren []] ++ (exOddWhere ++ [.group .brace ([] ++ (exOddConst ++ (exOddMethod ++ [])))]))))
def exOddTrees : List RTree :=
  [] ++ [] ++ id' (str% "const") :: id' (str% "fn") :: ([id' (str% "f"), .group .paren []] ++ [.group .brace []]) ++ ([] ++ [] ++ exOddImpl ++ [])

def exOddText : Str :=
  str% "const fn f() {}\nunsafe impl () where u8: Copy { // members\n const A: u8 = 1; unsafe fn g() { let x = 1; x } }\n"

theorem exOdd_text : FileText [.other, .impl (.tuple 0) [.other, .fn ⟨str% "g", [], none, [.other, .expr (.path [str% "x"])]⟩]] exOddText := by
  refine ⟨[], exOddTrees, .nil, .cons .nil .none (.constFn (by decide) (by simp [NoBody])) (.cons .nil .none ?_ .nil), by decide +kernel,
    LayoutCheck.layoutB_sound (by decide +kernel)⟩
  refine .impl (.inr rfl) .none .none .unit (.some (by simp [NoBody])) .nil (.other (.const (Gen.name_of (by decide)) (by decide) .nil .none (by simp [NoSemi])) ?_)
  refine .fn (.mk (Gen.name_of (by decide)) .nil .none (.cons (.inr (.inr (.inr rfl))) .nil) .none .none .none (.let (by simp [NoSemi]) (.last ?_))) .nil
  exact .product (.factor (.postfix (.atom (.path (.one (Gen.name_of (by decide)))))))

example : rustSyn exOddText = .ok [.other, .impl (.tuple 0) [.other, .fn ⟨str% "g", [], none, [.other, .expr (.path [str% "x"])]⟩]] :=
  rustSyn_fileText exOdd_text

end Swc
