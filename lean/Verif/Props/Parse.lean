/-
C43, C44: the weight expressions of pallet weight files.
-/
import Verif.Model.ParsePallet
import Verif.Spec.Runtime
import Verif.Spec.Arith
import Verif.Props.Chromatic

namespace Swc

open Spec Term

/-! ### Helpers -/

theorem parseDigits_eq (acc : Nat) (s : Str) : parseDigits acc s = readDigits acc s := by
  induction s generalizing acc with
  | nil => rfl
  | cons c s ih =>
    rw [parseDigits, readDigits, digitVal]
    by_cases h : c.isDigit
    · rw [if_pos h, if_pos h, ih, Nat.mul_comm]; rfl
    · rw [if_neg h, if_neg h]

theorem parseUInt_of_readNat {bound n : Nat} {s : Str} (h : readNat s = some n) :
    parseUInt bound s = if n < bound then some n else none := by
  cases s with
  | nil => cases h
  | cons c s =>
    have hc : c ≠ '+' := by
      rintro rfl
      simp [readNat, readDigits, digitVal] at h
    have e : parseUInt bound (c :: s) = match parseDigits 0 (c :: s) with
        | some n => if n < bound then some n else none
        | none => none := by
      unfold parseUInt
      split
      · rename_i heq; cases heq; exact absurd rfl hc
      · rfl
    rw [e, parseDigits_eq]
    rw [readNat] at h
    rw [h]

theorem litToValue_ok {digits : Str} {n m : Nat} (h : readNat digits = some n) (hm : litToValue (.int digits) = .ok m) : m = n := by
  rw [litToValue, parseUInt_of_readNat h] at hm
  split at hm
  · cases hm; rfl
  · cases hm

theorem joinStr_concat (sep : Str) (l : List Str) (hl : l ≠ []) (f : Str) : joinStr sep (l ++ [f]) = joinStr sep l ++ sep ++ f := by
  induction l with
  | nil => exact absurd rfl hl
  | cons a l ih =>
    cases l with
    | nil => simp [joinStr]
    | cons c l =>
      rw [List.cons_append, List.cons_append, joinStr, ← List.cons_append, ih (by simp), joinStr]
      simp [List.append_assoc]

theorem isFn_iff {f : Str} {segs : List Str} : isFn f segs = true ↔ ∃ l, l ≠ [] ∧ segs = l ++ [f] := by
  unfold isFn
  rw [Bool.and_eq_true, decide_eq_true_eq, beq_iff_eq]
  constructor
  · rintro ⟨h1, h2⟩
    obtain ⟨l, rfl⟩ := List.getLast?_eq_some_iff.1 h2
    refine ⟨l, ?_, rfl⟩
    rintro rfl
    simp at h1
  · rintro ⟨l, h, rfl⟩
    have := List.length_pos_of_ne_nil h
    simp
    omega

theorem endsWith_iff {a c : Str} : endsWith a c = true ↔ c <:+ a := by
  unfold endsWith
  exact List.isSuffixOf_iff_suffix

/-- Two suffixes of the same string are comparable. -/
theorem endsWith_two {a x y : Str} (h1 : endsWith a x = true) (h2 : endsWith a y = true) : x <:+ y ∨ y <:+ x := by
  rw [endsWith_iff] at h1 h2
  rcases Nat.le_total x.length y.length with h | h
  · exact .inl (List.suffix_of_suffix_length_le h1 h2 h)
  · exact .inr (List.suffix_of_suffix_length_le h2 h1 h)

theorem fn_endsWith {f : Str} {segs : List Str} (h : isFn f segs = true) :
    endsWith (pathToString segs (some (str% "::"))) (str% "::" ++ f) = true := by
  obtain ⟨l, hl, rfl⟩ := isFn_iff.1 h
  rw [endsWith_iff, pathToString]
  simp only [Option.getD_some]
  rw [joinStr_concat _ _ hl, List.append_assoc]
  exact List.suffix_append _ _

theorem fn_not_endsWith {f g : Str} {segs : List Str} (h : isFn f segs = true) (h1 : ¬ (str% "::" ++ f) <:+ (str% "::" ++ g))
    (h2 : ¬ (str% "::" ++ g) <:+ (str% "::" ++ f)) : endsWith (pathToString segs (some (str% "::"))) (str% "::" ++ g) = false := by
  rw [Bool.eq_false_iff]
  intro hc
  rcases endsWith_two (fn_endsWith h) hc with h' | h'
  · exact h1 h'
  · exact h2 h'

/-! ### The parsers on each form -/

theorem ps_into (r : Expr) (args : List Expr) (tr : Bool) : parseScalar (.methodCall r (str% "into") args tr) = parseScalar r := by
  cases args with
  | nil => rfl
  | cons a l => cases l <;> rfl
theorem ps_refTime (r : Expr) (tr : Bool) : parseScalar (.methodCall r (str% "ref_time") [] tr) = parseScalar r := rfl
theorem ps_add (r a : Expr) (tr : Bool) : parseScalar (.methodCall r (str% "saturating_add") [a] tr)
    = (do let l ← parseScalar r; let x ← parseScalar a; .ok (.add l x)) := rfl
theorem ps_mul (r a : Expr) (tr : Bool) : parseScalar (.methodCall r (str% "saturating_mul") [a] tr)
    = (do let l ← parseScalar r; let x ← parseScalar a; .ok (.mul l x)) := rfl
theorem ps_reads (r a : Expr) (tr : Bool) : parseScalar (.methodCall r (str% "reads") [a] tr)
    = (do validateDbCall r; let x ← parseScalar a; .ok (.mul x (.var (str% "READ")))) := rfl
theorem ps_writes (r a : Expr) (tr : Bool) : parseScalar (.methodCall r (str% "writes") [a] tr)
    = (do validateDbCall r; let x ← parseScalar a; .ok (.mul x (.var (str% "WRITE")))) := rfl

theorem pe_into (r : Expr) (args : List Expr) (tr : Bool) : parseExpression (.methodCall r (str% "into") args tr) = parseExpression r := by
  cases args with
  | nil => rfl
  | cons a l => cases l <;> rfl
theorem pe_add (r a : Expr) (tr : Bool) : parseExpression (.methodCall r (str% "saturating_add") [a] tr)
    = (do let l ← parseExpression r; let x ← parseExpression a; .ok (.add l x)) := rfl
theorem pe_mul (r a : Expr) (tr : Bool) : parseExpression (.methodCall r (str% "saturating_mul") [a] tr)
    = (do let l ← parseExpression r; let x ← parseExpression a; .ok (.mul l x)) := rfl
theorem pe_reads (r a : Expr) (tr : Bool) : parseExpression (.methodCall r (str% "reads") [a] tr)
    = (do validateDbCall r; let x ← parseRw a; .ok (.mul x (.var (str% "READ")))) := rfl
theorem pe_writes (r a : Expr) (tr : Bool) : parseExpression (.methodCall r (str% "writes") [a] tr)
    = (do validateDbCall r; let x ← parseRw a; .ok (.mul x (.var (str% "WRITE")))) := rfl
theorem pe_refTime (r : Expr) (args : List Expr) (tr : Bool) :
    parseExpression (.methodCall r (str% "ref_time") args tr) = .err (str% "Unknown function: ref_time") := by
  cases args with
  | nil => rfl
  | cons a l => cases l <;> rfl

theorem ps_zero {segs : List Str} (h : isFn (str% "zero") segs = true) (tr : Bool) :
    parseScalar (.call (.path segs) [] tr) = .ok (.value 0) := by
  have h1 := fn_not_endsWith (g := str% "from_ref_time") h (by decide) (by decide)
  have h2 := fn_endsWith h
  simp only [List.cons_append, List.nil_append] at h1 h2
  simp [parseScalar, functionName, h1, h2, emptyOrTrailing]

theorem ps_fromRefTime {segs : List Str} (h : isFn (str% "from_ref_time") segs = true) (a : Expr) (tr : Bool) :
    parseScalar (.call (.path segs) [a] tr) = parseScalar a := by
  have h2 := fn_endsWith h
  simp only [List.cons_append, List.nil_append] at h2
  rw [parseScalar]
  simp [functionName, h2]

theorem pe_zero {segs : List Str} (h : isFn (str% "zero") segs = true) (tr : Bool) :
    parseExpression (.call (.path segs) [] tr) = .ok (.value ⟨0, 0⟩) := by
  have h1 := fn_not_endsWith (g := str% "from_ref_time") h (by decide) (by decide)
  have h2 := fn_not_endsWith (g := str% "from_proof_size") h (by decide) (by decide)
  have h3 := fn_not_endsWith (g := str% "from_parts") h (by decide) (by decide)
  have h4 := fn_endsWith h
  simp only [List.cons_append, List.nil_append] at h1 h2 h3 h4
  simp [parseExpression, parseCall, functionName, h1, h2, h3, h4, emptyOrTrailing]

theorem pe_fromRefTime {segs : List Str} (h : isFn (str% "from_ref_time") segs = true) (a : Expr) (tr : Bool) :
    parseExpression (.call (.path segs) [a] tr) = (do let x ← parseScalar a; .ok (intoChromatic .time x)) := by
  have h4 := fn_endsWith h
  simp only [List.cons_append, List.nil_append] at h4
  simp [parseExpression, parseCall, functionName, h4]

theorem pe_fromProofSize {segs : List Str} (h : isFn (str% "from_proof_size") segs = true) (a : Expr) (tr : Bool) :
    parseExpression (.call (.path segs) [a] tr) = (do let x ← parseScalar a; .ok (intoChromatic .proof x)) := by
  have h1 := fn_not_endsWith (g := str% "from_ref_time") h (by decide) (by decide)
  have h4 := fn_endsWith h
  simp only [List.cons_append, List.nil_append] at h1 h4
  simp [parseExpression, parseCall, functionName, h1, h4]

theorem pe_fromParts {segs : List Str} (h : isFn (str% "from_parts") segs = true) (a c : Expr) (tr : Bool) :
    parseExpression (.call (.path segs) [a, c] tr)
      = (do let x ← parseScalar a; let y ← parseScalar c; .ok (spliceAdd (intoChromatic .time x) (intoChromatic .proof y))) := by
  have h1 := fn_not_endsWith (g := str% "from_ref_time") h (by decide) (by decide)
  have h2 := fn_not_endsWith (g := str% "from_proof_size") h (by decide) (by decide)
  have h4 := fn_endsWith h
  simp only [List.cons_append, List.nil_append] at h1 h2 h4
  simp [parseExpression, parseCall, functionName, h1, h2, h4]

/-! ### Numbers -/

/-- The assignment agrees with the runtime on everything but the two storage constants. -/
def Agrees (rt : Runtime) (ρ : Str → Nat) : Prop := ∀ x, x ≠ str% "READ" → x ≠ str% "WRITE" → ρ x = rt.comp x

theorem agrees_env (rt : Runtime) (d : Dimension) : Agrees rt (rt.env d) := by
  intro x h1 h2
  simp only [Runtime.env, if_neg h1, if_neg h2]

theorem named_ok {rt : Runtime} {segs : List Str} {n : Nat} (h : named rt segs = some n) {ρ : Str → Nat} (hρ : Agrees rt ρ) :
    ρ (pathToString segs (some (str% "::"))) = n := by
  unfold named at h
  simp only [pathToString, Option.getD_some]
  dsimp only at h
  split at h
  · cases h
  · rename_i hn
    cases h
    exact hρ _ (fun e => hn (.inl e)) (fun e => hn (.inr e))

theorem obind_some {α β : Type} {x : Option α} {f : α → Option β} {y : β} (h : (x >>= f) = some y) : ∃ a, x = some a ∧ f a = some y := by
  cases x with
  | none => cases h
  | some a => exact ⟨a, rfl, h⟩

theorem lit_num {digits : Str} {n : Nat} (hn : (readNat digits).bind exact.lit = some n) : readNat digits = some n := by
  cases h : readNat digits with
  | none => rw [h] at hn; cases hn
  | some m => rw [h] at hn; exact hn

theorem parseScalar_num {rt : Runtime} {e : Expr} {n : Nat} {t : SimpleTerm} (hn : num exact rt e = some n)
    (ht : parseScalar e = .ok t) {ρ : Str → Nat} (hρ : Agrees rt ρ) : denote ρ t = n := by
  fun_induction num exact rt e generalizing n t with
  | case1 d =>
    rw [parseScalar] at ht
    obtain ⟨m, hm, h⟩ := bind_eq_ok ht
    cases h
    exact litToValue_ok (lit_num hn) hm
  | case2 e ih => rw [parseScalar] at ht; exact ih hn ht
  | case3 e ih => rw [parseScalar] at ht; exact ih hn ht
  | case4 segs => rw [parseScalar] at ht; cases ht; exact named_ok hn hρ
  | case5 r tr ih => rw [ps_into] at ht; exact ih hn ht
  | case6 => cases hn
  | case7 r a tr ih2 ih1 =>
    rw [ps_add] at ht
    obtain ⟨x, hx, hn⟩ := obind_some hn
    obtain ⟨y, hy, hn⟩ := obind_some hn
    obtain ⟨l, hl, ht⟩ := bind_eq_ok ht
    obtain ⟨s, hs, ht⟩ := bind_eq_ok ht
    cases hn; cases ht
    rw [denote, ih2 hx hl, ih1 hy hs]
    rfl
  | case8 r a tr _ ih2 ih1 =>
    rw [ps_mul] at ht
    obtain ⟨x, hx, hn⟩ := obind_some hn
    obtain ⟨y, hy, hn⟩ := obind_some hn
    obtain ⟨l, hl, ht⟩ := bind_eq_ok ht
    obtain ⟨s, hs, ht⟩ := bind_eq_ok ht
    cases hn; cases ht
    rw [denote, ih2 hx hl, ih1 hy hs]
    rfl
  | case9 => cases hn
  | case10 => cases hn

/-- A number used as a factor of a weight. -/
theorem parseExpression_num {rt : Runtime} {e : Expr} {n : Nat} {t : ChromaticTerm} (hn : num exact rt e = some n)
    (ht : parseExpression e = .ok t) {ρ : Str → Nat} (hρ : Agrees rt ρ) (d : Dimension) : cvalue d ρ t = n := by
  fun_induction num exact rt e generalizing n t with
  | case1 d => rw [parseExpression] at ht; cases ht
  | case2 e ih => rw [parseExpression] at ht; exact ih hn ht
  | case3 e ih => rw [parseExpression] at ht; exact ih hn ht
  | case4 segs => rw [parseExpression] at ht; cases ht; exact named_ok hn hρ
  | case5 r tr ih => rw [pe_into] at ht; exact ih hn ht
  | case6 => cases hn
  | case7 r a tr ih2 ih1 =>
    rw [pe_add] at ht
    obtain ⟨x, hx, hn⟩ := obind_some hn
    obtain ⟨y, hy, hn⟩ := obind_some hn
    obtain ⟨l, hl, ht⟩ := bind_eq_ok ht
    obtain ⟨s, hs, ht⟩ := bind_eq_ok ht
    cases hn; cases ht
    rw [cvalue, ih2 hx hl, ih1 hy hs]
    rfl
  | case8 r a tr _ ih2 ih1 =>
    rw [pe_mul] at ht
    obtain ⟨x, hx, hn⟩ := obind_some hn
    obtain ⟨y, hy, hn⟩ := obind_some hn
    obtain ⟨l, hl, ht⟩ := bind_eq_ok ht
    obtain ⟨s, hs, ht⟩ := bind_eq_ok ht
    cases hn; cases ht
    rw [cvalue, ih2 hx hl, ih1 hy hs]
    rfl
  | case9 => cases hn
  | case10 => cases hn

/-- An anchored number stays within its dimension. -/
theorem anchored_num {rt : Runtime} {e : Expr} {n : Nat} {t : SimpleTerm} (hn : num exact rt e = some n)
    (ht : parseScalar e = .ok t) (ha : Anchor e) : Anchored t := by
  fun_induction num exact rt e generalizing n t with
  | case1 d =>
    rw [parseScalar] at ht
    obtain ⟨m, hm, h⟩ := bind_eq_ok ht
    cases h
    trivial
  | case2 e ih => rw [parseScalar] at ht; rw [Anchor] at ha; exact ih hn ht ha
  | case3 e ih => rw [parseScalar] at ht; rw [Anchor] at ha; exact ih hn ht ha
  | case4 segs => unfold Anchor at ha; cases ha
  | case5 r tr ih => rw [ps_into] at ht; rw [Anchor] at ha; exact ih hn ht ha
  | case6 => cases hn
  | case7 r a tr ih2 ih1 =>
    rw [ps_add] at ht
    rw [Anchor, if_neg (by decide)] at ha
    obtain ⟨x, hx, hn⟩ := obind_some hn
    obtain ⟨y, hy, hn⟩ := obind_some hn
    obtain ⟨l, hl, ht⟩ := bind_eq_ok ht
    obtain ⟨s, hs, ht⟩ := bind_eq_ok ht
    cases hn; cases ht
    exact ⟨ih2 hx hl ha.1, ih1 hy hs ha.2⟩
  | case8 r a tr _ ih2 ih1 =>
    rw [ps_mul] at ht
    rw [Anchor, if_pos rfl] at ha
    obtain ⟨x, hx, hn⟩ := obind_some hn
    obtain ⟨y, hy, hn⟩ := obind_some hn
    obtain ⟨l, hl, ht⟩ := bind_eq_ok ht
    obtain ⟨s, hs, ht⟩ := bind_eq_ok ht
    cases hn; cases ht
    exact ha.imp (ih2 hx hl) (ih1 hy hs)
  | case9 => cases hn
  | case10 => cases hn

/-! ### Weights -/

theorem env_read_time (rt : Runtime) : rt.env .time (str% "READ") = rt.read := rfl
theorem env_write_time (rt : Runtime) : rt.env .time (str% "WRITE") = rt.write := rfl
theorem env_read_proof (rt : Runtime) : rt.env .proof (str% "READ") = 0 := rfl
theorem env_write_proof (rt : Runtime) : rt.env .proof (str% "WRITE") = 0 := rfl

/-- One coordinate of a weight. -/
theorem parseRw_num {rt : Runtime} {e : Expr} {n : Nat} {t : ChromaticTerm} (hn : num exact rt e = some n)
    (ht : parseRw e = .ok t) {ρ : Str → Nat} (hρ : Agrees rt ρ) : cvalue .time ρ t = n := by
  unfold parseRw at ht
  split at ht
  · obtain ⟨m, hm, h⟩ := bind_eq_ok ht
    cases h
    rename_i l
    cases l with
    | other => cases hm
    | int d => exact litToValue_ok (lit_num hn) hm
  · obtain ⟨m, hm, h⟩ := bind_eq_ok ht
    cases h
    rw [C11_into_chromatic_same]
    exact parseScalar_num hn hm hρ

theorem parseExpression_weight {rt : Runtime} {e : Expr} {w : Weight} {t : ChromaticTerm} (hw : weight exact rt e = some w)
    (ha : Anchored2 e) (ht : parseExpression e = .ok t) (d : Dimension) : cvalue d (rt.env d) t = coord d w := by
  have hρ := agrees_env rt d
  fun_induction weight exact rt e generalizing w t with
  | case1 e ih => rw [parseExpression] at ht; exact ih hw ha ht
  | case2 segs tr h => cases hw; rw [pe_zero h] at ht; cases ht; cases d <;> rfl
  | case4 segs a tr h =>
    obtain ⟨x, hx, hw⟩ := obind_some hw
    rw [pe_fromRefTime h] at ht
    obtain ⟨l, hl, ht⟩ := bind_eq_ok ht
    cases hw; cases ht
    cases d with
    | time => rw [C11_into_chromatic_same]; exact parseScalar_num hx hl hρ
    | proof => exact (C11_into_chromatic_other .time l).2 (anchored_num hx hl ha) _
  | case5 segs a tr _ h =>
    obtain ⟨x, hx, hw⟩ := obind_some hw
    rw [pe_fromProofSize h] at ht
    obtain ⟨l, hl, ht⟩ := bind_eq_ok ht
    cases hw; cases ht
    cases d with
    | proof => rw [C11_into_chromatic_same]; exact parseScalar_num hx hl hρ
    | time => exact (C11_into_chromatic_other .proof l).2 (anchored_num hx hl ha) _
  | case7 segs a c tr h =>
    obtain ⟨x, hx, hw⟩ := obind_some hw
    obtain ⟨y, hy, hw⟩ := obind_some hw
    rw [pe_fromParts h] at ht
    obtain ⟨l, hl, ht⟩ := bind_eq_ok ht
    obtain ⟨r, hr, ht⟩ := bind_eq_ok ht
    cases hw; cases ht
    rw [C10_splice_add]
    cases d with
    | time =>
      rw [C11_into_chromatic_same, parseScalar_num hx hl hρ]
      have := (C11_into_chromatic_other .proof r).2 (anchored_num hy hr ha.2) (rt.env .time)
      simp only [other] at this
      rw [this]
      rfl
    | proof =>
      rw [C11_into_chromatic_same, parseScalar_num hy hr hρ]
      have := (C11_into_chromatic_other .time l).2 (anchored_num hx hl ha.1) (rt.env .proof)
      simp only [other] at this
      rw [this]
      exact Nat.zero_add _
  | case9 r tr ih => rw [pe_into] at ht; exact ih hw ha ht
  | case11 r m a tr h =>
    obtain ⟨rfl, h⟩ := h
    obtain ⟨x, hx, hw⟩ := obind_some hw
    rw [pe_reads] at ht
    obtain ⟨_, _, ht⟩ := bind_eq_ok ht
    obtain ⟨l, hl, ht⟩ := bind_eq_ok ht
    cases hw; cases ht
    cases d with
    | time => rw [cvalue, parseRw_num hx hl hρ]; rfl
    | proof => rw [cvalue]; exact Nat.mul_zero _
  | case12 r m a tr _ h =>
    obtain ⟨rfl, h⟩ := h
    obtain ⟨x, hx, hw⟩ := obind_some hw
    rw [pe_writes] at ht
    obtain ⟨_, _, ht⟩ := bind_eq_ok ht
    obtain ⟨l, hl, ht⟩ := bind_eq_ok ht
    cases hw; cases ht
    cases d with
    | time => rw [cvalue, parseRw_num hx hl hρ]; rfl
    | proof => rw [cvalue]; exact Nat.mul_zero _
  | case13 r a tr _ _ ih2 ih1 =>
    rw [pe_add] at ht
    rw [Anchored2, if_pos rfl] at ha
    obtain ⟨x, hx, hw⟩ := obind_some hw
    obtain ⟨y, hy, hw⟩ := obind_some hw
    obtain ⟨l, hl, ht⟩ := bind_eq_ok ht
    obtain ⟨s, hs, ht⟩ := bind_eq_ok ht
    cases hw; cases ht
    rw [cvalue, ih2 hx ha.1 hl, ih1 hy ha.2 hs]
    cases d <;> rfl
  | case14 r a tr _ _ _ ih1 =>
    rw [pe_mul] at ht
    rw [Anchored2, if_neg (by decide), if_pos rfl] at ha
    obtain ⟨x, hx, hw⟩ := obind_some hw
    obtain ⟨y, hy, hw⟩ := obind_some hw
    obtain ⟨l, hl, ht⟩ := bind_eq_ok ht
    obtain ⟨s, hs, ht⟩ := bind_eq_ok ht
    cases hw; cases ht
    rw [cvalue, ih1 hx ha hl, parseExpression_num hy hs hρ]
    cases d <;> rfl
  | _ => cases hw

/-- The fall-back only accepts weights without a proof part. -/
theorem parseScalar_no_proof {rt : Runtime} {e : Expr} {w : Weight} {t : SimpleTerm} (hw : weight exact rt e = some w)
    (ht : parseScalar e = .ok t) : w.proof = 0 := by
  fun_induction weight exact rt e generalizing w t with
  | case1 e ih => rw [parseScalar] at ht; exact ih hw ht
  | case2 segs tr h => cases hw; rfl
  | case4 segs a tr h => obtain ⟨x, hx, hw⟩ := obind_some hw; cases hw; rfl
  | case5 segs a tr _ h =>
    have h1 := fn_not_endsWith (g := str% "from_ref_time") h (by decide) (by decide)
    have h2 := fn_not_endsWith (g := str% "zero") h (by decide) (by decide)
    simp only [List.cons_append, List.nil_append] at h1 h2
    simp [parseScalar, functionName, h1, h2] at ht
  | case7 segs a c tr h =>
    have h1 := fn_not_endsWith (g := str% "from_ref_time") h (by decide) (by decide)
    have h2 := fn_not_endsWith (g := str% "zero") h (by decide) (by decide)
    simp only [List.cons_append, List.nil_append] at h1 h2
    simp [parseScalar, functionName, h1, h2] at ht
  | case9 r tr ih => rw [ps_into] at ht; exact ih hw ht
  | case11 r m a tr h => obtain ⟨x, hx, hw⟩ := obind_some hw; cases hw; rfl
  | case12 r m a tr _ h => obtain ⟨x, hx, hw⟩ := obind_some hw; cases hw; rfl
  | case13 r a tr _ _ ih2 ih1 =>
    rw [ps_add] at ht
    obtain ⟨x, hx, hw⟩ := obind_some hw
    obtain ⟨y, hy, hw⟩ := obind_some hw
    obtain ⟨l, hl, ht⟩ := bind_eq_ok ht
    obtain ⟨s, hs, ht⟩ := bind_eq_ok ht
    cases hw
    show x.proof + y.proof = 0
    rw [ih2 hx hl, ih1 hy hs]
  | case14 r a tr _ _ _ ih1 =>
    rw [ps_mul] at ht
    obtain ⟨x, hx, hw⟩ := obind_some hw
    obtain ⟨y, hy, hw⟩ := obind_some hw
    obtain ⟨l, hl, ht⟩ := bind_eq_ok ht
    cases hw
    show x.proof * y = 0
    rw [ih1 hx hl, Nat.zero_mul]
  | _ => cases hw

/-- The fall-back on a two-dimensional weight: only weights without a proof part get through. -/
theorem parseScalar_weight {rt : Runtime} {e : Expr} {w : Weight} {t : SimpleTerm} (hw : weight exact rt e = some w)
    (ha : Anchored2 e) (ht : parseScalar e = .ok t) (d : Dimension) : cvalue d (rt.env d) (intoChromatic .time t) = coord d w := by
  have hρ := agrees_env rt d
  fun_induction weight exact rt e generalizing w t with
  | case1 e ih => rw [parseScalar] at ht; exact ih hw ha ht
  | case2 segs tr h => cases hw; rw [ps_zero h] at ht; cases ht; cases d <;> rfl
  | case4 segs a tr h =>
    obtain ⟨x, hx, hw⟩ := obind_some hw
    rw [ps_fromRefTime h] at ht
    cases hw
    cases d with
    | time => rw [C11_into_chromatic_same]; exact parseScalar_num hx ht hρ
    | proof => exact (C11_into_chromatic_other .time _).2 (anchored_num hx ht ha) _
  | case5 segs a tr _ h =>
    have h1 := fn_not_endsWith (g := str% "from_ref_time") h (by decide) (by decide)
    have h2 := fn_not_endsWith (g := str% "zero") h (by decide) (by decide)
    simp only [List.cons_append, List.nil_append] at h1 h2
    simp [parseScalar, functionName, h1, h2] at ht
  | case7 segs a c tr h =>
    have h1 := fn_not_endsWith (g := str% "from_ref_time") h (by decide) (by decide)
    have h2 := fn_not_endsWith (g := str% "zero") h (by decide) (by decide)
    simp only [List.cons_append, List.nil_append] at h1 h2
    simp [parseScalar, functionName, h1, h2] at ht
  | case9 r tr ih => rw [ps_into] at ht; exact ih hw ha ht
  | case11 r m a tr h =>
    obtain ⟨rfl, h⟩ := h
    obtain ⟨x, hx, hw⟩ := obind_some hw
    rw [ps_reads] at ht
    obtain ⟨_, _, ht⟩ := bind_eq_ok ht
    obtain ⟨l, hl, ht⟩ := bind_eq_ok ht
    cases hw; cases ht
    cases d with
    | time => rw [C11_into_chromatic_same, denote, parseScalar_num hx hl hρ]; rfl
    | proof => rw [intoChromatic, cvalue]; exact Nat.mul_zero _
  | case12 r m a tr _ h =>
    obtain ⟨rfl, h⟩ := h
    obtain ⟨x, hx, hw⟩ := obind_some hw
    rw [ps_writes] at ht
    obtain ⟨_, _, ht⟩ := bind_eq_ok ht
    obtain ⟨l, hl, ht⟩ := bind_eq_ok ht
    cases hw; cases ht
    cases d with
    | time => rw [C11_into_chromatic_same, denote, parseScalar_num hx hl hρ]; rfl
    | proof => rw [intoChromatic, cvalue]; exact Nat.mul_zero _
  | case13 r a tr _ _ ih2 ih1 =>
    rw [ps_add] at ht
    rw [Anchored2, if_pos rfl] at ha
    obtain ⟨x, hx, hw⟩ := obind_some hw
    obtain ⟨y, hy, hw⟩ := obind_some hw
    obtain ⟨l, hl, ht⟩ := bind_eq_ok ht
    obtain ⟨s, hs, ht⟩ := bind_eq_ok ht
    cases hw; cases ht
    rw [intoChromatic, cvalue, ih2 hx ha.1 hl, ih1 hy ha.2 hs]
    cases d <;> rfl
  | case14 r a tr _ _ _ ih1 =>
    rw [ps_mul] at ht
    rw [Anchored2, if_neg (by decide), if_pos rfl] at ha
    obtain ⟨x, hx, hw⟩ := obind_some hw
    obtain ⟨y, hy, hw⟩ := obind_some hw
    obtain ⟨l, hl, ht⟩ := bind_eq_ok ht
    obtain ⟨s, hs, ht⟩ := bind_eq_ok ht
    cases hw; cases ht
    have h0 := ih1 hx ha hl
    rw [intoChromatic, cvalue, h0]
    cases d with
    | time => rw [C11_into_chromatic_same, parseScalar_num hy hs hρ]; rfl
    | proof =>
      have hz := parseScalar_no_proof hx hl
      simp only [coord, hz, exact, Nat.zero_mul]
  | _ => cases hw

/-! ### One-dimensional weights -/

theorem parseScalar_legacy {rt : Runtime} {e : Expr} {n : Nat} {t : SimpleTerm} (hn : legacy exact rt e = some n)
    (ht : parseScalar e = .ok t) : denote (rt.env .time) t = n := by
  have hρ := agrees_env rt .time
  fun_induction legacy exact rt e generalizing n t with
  | case1 d =>
    rw [parseScalar] at ht
    obtain ⟨m, hm, h⟩ := bind_eq_ok ht
    cases h
    exact litToValue_ok (lit_num hn) hm
  | case2 e ih => rw [parseScalar] at ht; exact ih hn ht
  | case3 e ih => rw [parseScalar] at ht; exact ih hn ht
  | case4 segs => rw [parseScalar] at ht; cases ht; exact named_ok hn hρ
  | case5 segs tr h => cases hn; rw [ps_zero h] at ht; cases ht; rfl
  | case7 segs a tr h ih => rw [ps_fromRefTime h] at ht; exact ih hn ht
  | case9 r m tr h ih =>
    rcases h with rfl | rfl
    · rw [ps_into] at ht; exact ih hn ht
    · rw [ps_refTime] at ht; exact ih hn ht
  | case11 r m a tr h ih =>
    obtain ⟨rfl, h⟩ := h
    obtain ⟨x, hx, hn⟩ := obind_some hn
    rw [ps_reads] at ht
    obtain ⟨_, _, ht⟩ := bind_eq_ok ht
    obtain ⟨l, hl, ht⟩ := bind_eq_ok ht
    cases hn; cases ht
    rw [denote, ih hx hl]; rfl
  | case12 r m a tr _ h ih =>
    obtain ⟨rfl, h⟩ := h
    obtain ⟨x, hx, hn⟩ := obind_some hn
    rw [ps_writes] at ht
    obtain ⟨_, _, ht⟩ := bind_eq_ok ht
    obtain ⟨l, hl, ht⟩ := bind_eq_ok ht
    cases hn; cases ht
    rw [denote, ih hx hl]; rfl
  | case13 r a tr _ _ ih2 ih1 =>
    rw [ps_add] at ht
    obtain ⟨x, hx, hn⟩ := obind_some hn
    obtain ⟨y, hy, hn⟩ := obind_some hn
    obtain ⟨l, hl, ht⟩ := bind_eq_ok ht
    obtain ⟨s, hs, ht⟩ := bind_eq_ok ht
    cases hn; cases ht
    rw [denote, ih2 hx hl, ih1 hy hs]; rfl
  | case14 r a tr _ _ _ ih2 ih1 =>
    rw [ps_mul] at ht
    obtain ⟨x, hx, hn⟩ := obind_some hn
    obtain ⟨y, hy, hn⟩ := obind_some hn
    obtain ⟨l, hl, ht⟩ := bind_eq_ok ht
    obtain ⟨s, hs, ht⟩ := bind_eq_ok ht
    cases hn; cases ht
    rw [denote, ih2 hx hl, ih1 hy hs]; rfl
  | _ => cases hn

theorem parseRw_legacy {rt : Runtime} {e : Expr} {n : Nat} {t : ChromaticTerm} (hn : legacy exact rt e = some n)
    (ht : parseRw e = .ok t) : cvalue .time (rt.env .time) t = n := by
  unfold parseRw at ht
  split at ht
  · obtain ⟨m, hm, h⟩ := bind_eq_ok ht
    cases h
    rename_i l
    cases l with
    | other => cases hm
    | int d => exact litToValue_ok (lit_num hn) hm
  · obtain ⟨m, hm, h⟩ := bind_eq_ok ht
    cases h
    rw [C11_into_chromatic_same]
    exact parseScalar_legacy hn hm

/-- A one-dimensional weight that happens to be accepted by the two-dimensional parser. -/
theorem parseExpression_legacy {rt : Runtime} {e : Expr} {n : Nat} {t : ChromaticTerm} (hn : legacy exact rt e = some n)
    (ht : parseExpression e = .ok t) : cvalue .time (rt.env .time) t = n := by
  have hρ := agrees_env rt .time
  fun_induction legacy exact rt e generalizing n t with
  | case1 d => rw [parseExpression] at ht; cases ht
  | case2 e ih => rw [parseExpression] at ht; exact ih hn ht
  | case3 e ih => rw [parseExpression] at ht; exact ih hn ht
  | case4 segs => rw [parseExpression] at ht; cases ht; exact named_ok hn hρ
  | case5 segs tr h => cases hn; rw [pe_zero h] at ht; cases ht; rfl
  | case7 segs a tr h ih =>
    rw [pe_fromRefTime h] at ht
    obtain ⟨l, hl, ht⟩ := bind_eq_ok ht
    cases ht
    rw [C11_into_chromatic_same]
    exact parseScalar_legacy hn hl
  | case9 r m tr h ih =>
    rcases h with rfl | rfl
    · rw [pe_into] at ht; exact ih hn ht
    · rw [pe_refTime] at ht; cases ht
  | case11 r m a tr h ih =>
    obtain ⟨rfl, h⟩ := h
    obtain ⟨x, hx, hn⟩ := obind_some hn
    rw [pe_reads] at ht
    obtain ⟨_, _, ht⟩ := bind_eq_ok ht
    obtain ⟨l, hl, ht⟩ := bind_eq_ok ht
    cases hn; cases ht
    rw [cvalue, parseRw_legacy hx hl]; rfl
  | case12 r m a tr _ h ih =>
    obtain ⟨rfl, h⟩ := h
    obtain ⟨x, hx, hn⟩ := obind_some hn
    rw [pe_writes] at ht
    obtain ⟨_, _, ht⟩ := bind_eq_ok ht
    obtain ⟨l, hl, ht⟩ := bind_eq_ok ht
    cases hn; cases ht
    rw [cvalue, parseRw_legacy hx hl]; rfl
  | case13 r a tr _ _ ih2 ih1 =>
    rw [pe_add] at ht
    obtain ⟨x, hx, hn⟩ := obind_some hn
    obtain ⟨y, hy, hn⟩ := obind_some hn
    obtain ⟨l, hl, ht⟩ := bind_eq_ok ht
    obtain ⟨s, hs, ht⟩ := bind_eq_ok ht
    cases hn; cases ht
    rw [cvalue, ih2 hx hl, ih1 hy hs]; rfl
  | case14 r a tr _ _ _ ih2 ih1 =>
    rw [pe_mul] at ht
    obtain ⟨x, hx, hn⟩ := obind_some hn
    obtain ⟨y, hy, hn⟩ := obind_some hn
    obtain ⟨l, hl, ht⟩ := bind_eq_ok ht
    obtain ⟨s, hs, ht⟩ := bind_eq_ok ht
    cases hn; cases ht
    rw [cvalue, ih2 hx hl, ih1 hy hs]; rfl
  | _ => cases hn

/-! ### C43 -/

/-- C43: if the parser accepts the body of a weight function, the resulting equation evaluates, in each dimension and under every
choice of component values and storage costs, to what the body computes in unbounded arithmetic.  Storage costs count for time only. -/
theorem C43_weight {rt : Runtime} {e : Expr} {w : Weight} {t : ChromaticTerm} (hw : weight exact rt e = some w)
    (ha : Anchored2 e) (ht : parseBody e = .ok t) (d : Dimension) : cvalue d (rt.env d) t = coord d w := by
  unfold parseBody at ht
  split at ht
  · obtain ⟨s, hs, h⟩ := bind_eq_ok ht
    cases h
    exact parseScalar_weight hw ha hs d
  · exact parseExpression_weight hw ha ht d

/-- C43, one-dimensional weights: their reference time. -/
theorem C43_legacy {rt : Runtime} {e : Expr} {n : Nat} {t : ChromaticTerm} (hn : legacy exact rt e = some n)
    (ht : parseBody e = .ok t) : cvalue .time (rt.env .time) t = n := by
  unfold parseBody at ht
  split at ht
  · obtain ⟨s, hs, h⟩ := bind_eq_ok ht
    cases h
    rw [C11_into_chromatic_same]
    exact parseScalar_legacy hn hs
  · exact parseExpression_legacy hn ht

/-! ### Saturation -/

theorem min_add_min (a b M : Nat) : min (min a M + min b M) M = min (a + b) M := by omega

theorem min_mul_min (a b M : Nat) : min (min a M * min b M) M = min (a * b) M := by
  rcases Nat.eq_zero_or_pos a with rfl | ha
  · simp
  rcases Nat.eq_zero_or_pos b with rfl | hb
  · simp
  rcases Nat.le_total a M with h1 | h1
  · rw [Nat.min_eq_left h1]
    rcases Nat.le_total b M with h2 | h2
    · rw [Nat.min_eq_left h2]
    · rw [Nat.min_eq_right h2, Nat.min_eq_right (Nat.le_mul_of_pos_left M ha),
        Nat.min_eq_right (Nat.le_trans h2 (Nat.le_mul_of_pos_left b ha))]
  · rw [Nat.min_eq_right h1, Nat.min_eq_right (a := a * b) (Nat.le_trans h1 (Nat.le_mul_of_pos_right a hb))]
    rcases Nat.eq_zero_or_pos M with rfl | hM
    · simp
    · exact Nat.min_eq_right (Nat.le_mul_of_pos_right M (by omega))

theorem min_mul_min_left (a b M : Nat) : min (min a M * b) M = min (a * b) M := by
  rw [← min_mul_min, Nat.min_eq_left (Nat.min_le_right a M), min_mul_min]

/-- Saturation at every step is saturation of the result. -/
theorem lit_saturating {M n : Nat} {digits : Str} (h : (readNat digits).bind (saturating M).lit = some n) :
    (readNat digits).bind exact.lit = some n ∧ n ≤ M := by
  cases hr : readNat digits with
  | none => rw [hr] at h; cases h
  | some m =>
    rw [hr] at h
    simp only [Option.bind_some, saturating] at h
    split at h
    · cases h; exact ⟨rfl, by assumption⟩
    · cases h

theorem named_le {rt : Runtime} {M : Nat} (hM : ∀ x, rt.comp x ≤ M) {segs : List Str} {n : Nat} (h : named rt segs = some n) : n ≤ M := by
  unfold named at h
  dsimp only at h
  split at h
  · cases h
  · cases h; exact hM _

theorem num_saturating {rt : Runtime} {M : Nat} (hM : ∀ x, rt.comp x ≤ M) {e : Expr} {m : Nat}
    (h : num (saturating M) rt e = some m) : ∃ n, num exact rt e = some n ∧ m = min n M := by
  fun_induction num (saturating M) rt e generalizing m with
  | case1 d => obtain ⟨h1, h2⟩ := lit_saturating h; exact ⟨m, h1, (Nat.min_eq_left h2).symm⟩
  | case2 e ih => exact ih h
  | case3 e ih => exact ih h
  | case4 segs => exact ⟨m, h, (Nat.min_eq_left (named_le hM h)).symm⟩
  | case5 r tr ih =>
    obtain ⟨n, h1, h2⟩ := ih h
    exact ⟨n, by rw [num, if_pos rfl]; exact h1, h2⟩
  | case7 r a tr ih2 ih1 =>
    obtain ⟨x, hx, h⟩ := obind_some h
    obtain ⟨y, hy, h⟩ := obind_some h
    obtain ⟨x', hx', rfl⟩ := ih2 hx
    obtain ⟨y', hy', rfl⟩ := ih1 hy
    cases h
    exact ⟨x' + y', by rw [num, if_pos rfl, hx', hy']; rfl, min_add_min _ _ _⟩
  | case8 r a tr _ ih2 ih1 =>
    obtain ⟨x, hx, h⟩ := obind_some h
    obtain ⟨y, hy, h⟩ := obind_some h
    obtain ⟨x', hx', rfl⟩ := ih2 hx
    obtain ⟨y', hy', rfl⟩ := ih1 hy
    cases h
    exact ⟨x' * y', by rw [num, if_neg (by decide), if_pos rfl, hx', hy']; rfl, min_mul_min _ _ _⟩
  | _ => cases h

theorem weight_saturating {rt : Runtime} {M : Nat} (hM : ∀ x, rt.comp x ≤ M) {e : Expr} {m : Weight}
    (h : weight (saturating M) rt e = some m) : ∃ w, weight exact rt e = some w ∧ m = ⟨min w.time M, min w.proof M⟩ := by
  fun_induction weight (saturating M) rt e generalizing m with
  | case1 e ih => exact ih h
  | case2 segs tr hf => cases h; exact ⟨⟨0, 0⟩, by rw [weight, if_pos hf], by simp⟩
  | case4 segs a tr hf =>
    obtain ⟨x, hx, h⟩ := obind_some h
    obtain ⟨x', hx', rfl⟩ := num_saturating hM hx
    cases h
    exact ⟨⟨x', 0⟩, by rw [weight, if_pos hf, hx']; rfl, by simp⟩
  | case5 segs a tr hf hg =>
    obtain ⟨x, hx, h⟩ := obind_some h
    obtain ⟨x', hx', rfl⟩ := num_saturating hM hx
    cases h
    exact ⟨⟨0, x'⟩, by rw [weight, if_neg hf, if_pos hg, hx']; rfl, by simp⟩
  | case7 segs a c tr hf =>
    obtain ⟨x, hx, h⟩ := obind_some h
    obtain ⟨y, hy, h⟩ := obind_some h
    obtain ⟨x', hx', rfl⟩ := num_saturating hM hx
    obtain ⟨y', hy', rfl⟩ := num_saturating hM hy
    cases h
    exact ⟨⟨x', y'⟩, by rw [weight, if_pos hf, hx', hy']; rfl, rfl⟩
  | case9 r tr ih =>
    obtain ⟨n, h1, h2⟩ := ih h
    exact ⟨n, by rw [weight, if_pos rfl]; exact h1, h2⟩
  | case11 r n a tr hf =>
    obtain ⟨x, hx, h⟩ := obind_some h
    obtain ⟨x', hx', rfl⟩ := num_saturating hM hx
    cases h
    exact ⟨⟨x' * rt.read, 0⟩, by rw [weight, if_pos hf, hx']; rfl, by simp [saturating, min_mul_min_left]⟩
  | case12 r n a tr hf hg =>
    obtain ⟨x, hx, h⟩ := obind_some h
    obtain ⟨x', hx', rfl⟩ := num_saturating hM hx
    cases h
    exact ⟨⟨x' * rt.write, 0⟩, by rw [weight, if_neg hf, if_pos hg, hx']; rfl, by simp [saturating, min_mul_min_left]⟩
  | case13 r a tr hf hg ih2 ih1 =>
    obtain ⟨x, hx, h⟩ := obind_some h
    obtain ⟨y, hy, h⟩ := obind_some h
    obtain ⟨x', hx', rfl⟩ := ih2 hx
    obtain ⟨y', hy', rfl⟩ := ih1 hy
    cases h
    exact ⟨⟨x'.time + y'.time, x'.proof + y'.proof⟩, by rw [weight, if_neg hf, if_neg hg, if_pos rfl, hx', hy']; rfl, by
      simp [saturating, min_add_min]⟩
  | case14 r a tr hf hg hh ih1 =>
    obtain ⟨x, hx, h⟩ := obind_some h
    obtain ⟨y, hy, h⟩ := obind_some h
    obtain ⟨x', hx', rfl⟩ := ih1 hx
    obtain ⟨y', hy', rfl⟩ := num_saturating hM hy
    cases h
    exact ⟨⟨x'.time * y', x'.proof * y'⟩, by rw [weight, if_neg hf, if_neg hg, if_neg hh, if_pos rfl, hx', hy']; rfl, by
      simp [saturating, min_mul_min]⟩
  | _ => cases h

theorem legacy_saturating {rt : Runtime} {M : Nat} (hM : ∀ x, rt.comp x ≤ M) {e : Expr} {m : Nat}
    (h : legacy (saturating M) rt e = some m) : ∃ n, legacy exact rt e = some n ∧ m = min n M := by
  fun_induction legacy (saturating M) rt e generalizing m with
  | case1 d => obtain ⟨h1, h2⟩ := lit_saturating h; exact ⟨m, h1, (Nat.min_eq_left h2).symm⟩
  | case2 e ih => exact ih h
  | case3 e ih => exact ih h
  | case4 segs => exact ⟨m, h, (Nat.min_eq_left (named_le hM h)).symm⟩
  | case5 segs tr hf => cases h; exact ⟨0, by rw [legacy, if_pos hf], by simp⟩
  | case7 segs a tr hf ih =>
    obtain ⟨n, h1, h2⟩ := ih h
    exact ⟨n, by rw [legacy, if_pos hf]; exact h1, h2⟩
  | case9 r _ tr hf ih =>
    obtain ⟨n, h1, h2⟩ := ih h
    exact ⟨n, by rw [legacy, if_pos hf]; exact h1, h2⟩
  | case11 r n a tr hf ih =>
    obtain ⟨x, hx, h⟩ := obind_some h
    obtain ⟨x', hx', rfl⟩ := ih hx
    cases h
    exact ⟨x' * rt.read, by rw [legacy, if_pos hf, hx']; rfl, min_mul_min_left _ _ _⟩
  | case12 r n a tr hf hg ih =>
    obtain ⟨x, hx, h⟩ := obind_some h
    obtain ⟨x', hx', rfl⟩ := ih hx
    cases h
    exact ⟨x' * rt.write, by rw [legacy, if_neg hf, if_pos hg, hx']; rfl, min_mul_min_left _ _ _⟩
  | case13 r a tr hf hg ih2 ih1 =>
    obtain ⟨x, hx, h⟩ := obind_some h
    obtain ⟨y, hy, h⟩ := obind_some h
    obtain ⟨x', hx', rfl⟩ := ih2 hx
    obtain ⟨y', hy', rfl⟩ := ih1 hy
    cases h
    exact ⟨x' + y', by rw [legacy, if_neg hf, if_neg hg, if_pos rfl, hx', hy']; rfl, min_add_min _ _ _⟩
  | case14 r a tr hf hg hh ih2 ih1 =>
    obtain ⟨x, hx, h⟩ := obind_some h
    obtain ⟨y, hy, h⟩ := obind_some h
    obtain ⟨x', hx', rfl⟩ := ih2 hx
    obtain ⟨y', hy', rfl⟩ := ih1 hy
    cases h
    exact ⟨x' * y', by rw [legacy, if_neg hf, if_neg hg, if_neg hh, if_pos rfl, hx', hy']; rfl, min_mul_min _ _ _⟩
  | _ => cases h

/-- C43 for the arithmetic the runtime really uses: the runtime's result is the value of the parsed equation, capped at the maximum `M`
(`u64::MAX`) of the runtime's number type. -/
theorem C43_weight_saturating {rt : Runtime} {M : Nat} (hM : ∀ x, rt.comp x ≤ M) {e : Expr} {w : Weight} {t : ChromaticTerm}
    (hw : weight (saturating M) rt e = some w) (ha : Anchored2 e) (ht : parseBody e = .ok t) (d : Dimension) :
    coord d w = min (cvalue d (rt.env d) t) M := by
  obtain ⟨w', h1, rfl⟩ := weight_saturating hM hw
  rw [C43_weight h1 ha ht d]
  cases d <;> rfl

/-- C43 for one-dimensional weights in saturating arithmetic. -/
theorem C43_legacy_saturating {rt : Runtime} {M : Nat} (hM : ∀ x, rt.comp x ≤ M) {e : Expr} {n : Nat} {t : ChromaticTerm}
    (hn : legacy (saturating M) rt e = some n) (ht : parseBody e = .ok t) : n = min (cvalue .time (rt.env .time) t) M := by
  obtain ⟨n', h1, rfl⟩ := legacy_saturating hM hn
  rw [C43_legacy h1 ht]

/-! ### Acceptance -/

theorem litToValue_saturating {M n : Nat} (hM : M < u128Size) {digits : Str} (h : (readNat digits).bind (saturating M).lit = some n) :
    litToValue (.int digits) = .ok n := by
  obtain ⟨h1, h2⟩ := lit_saturating h
  rw [litToValue, parseUInt_of_readNat (lit_num h1), if_pos (by omega)]
  rfl

theorem isDb_validate {r : Expr} (h : isDb r = true) : validateDbCall r = .ok () := by
  unfold isDb at h
  split at h
  · rename_i segs tr
    rw [validateDbCall, validateDbFunc]
    have hp : ¬ (joinStr (str% "::") segs ≠ str% "T::DbWeight::get" ∧ ¬ endsWith (joinStr (str% "::") segs) (str% "RocksDbWeight::get") = true
        ∧ ¬ endsWith (joinStr (str% "::") segs) (str% "ParityDbWeight::get") = true) := by
      rw [Bool.or_eq_true, beq_iff_eq] at h
      rcases h with rfl | h
      · exact fun hc => hc.1 (by decide)
      · rw [Bool.and_eq_true, Bool.or_eq_true, beq_iff_eq, beq_iff_eq, beq_iff_eq] at h
        obtain ⟨h1, h2⟩ := h
        obtain ⟨l, rfl⟩ := List.getLast?_eq_some_iff.1 h1
        rw [List.dropLast_concat] at h2
        have key : ∀ db : Str, l.getLast? = some db → endsWith (joinStr (str% "::") (l ++ [str% "get"])) (db ++ str% "::get") = true := by
          intro db hdb
          obtain ⟨l, rfl⟩ := List.getLast?_eq_some_iff.1 hdb
          rw [joinStr_concat _ _ (by simp), endsWith_iff]
          cases l with
          | nil => simp [joinStr]
          | cons a l =>
            rw [joinStr_concat _ _ (by simp)]
            exact ⟨joinStr (str% "::") (a :: l) ++ str% "::", by simp⟩
        rcases h2 with h2 | h2
        · exact fun hc => hc.2.1 (key _ h2)
        · exact fun hc => hc.2.2 (key _ h2)
    simp only [hp, if_false]
    rfl
  · cases h

theorem parseScalar_num_ok {rt : Runtime} {M : Nat} (hM : M < u128Size) {e : Expr} {n : Nat} (hn : num (saturating M) rt e = some n) :
    ∃ t, parseScalar e = .ok t := by
  fun_induction num (saturating M) rt e generalizing n with
  | case1 d => exact ⟨.scalar n, by rw [parseScalar, litToValue_saturating hM hn]; rfl⟩
  | case2 e ih => rw [parseScalar]; exact ih hn
  | case3 e ih => rw [parseScalar]; exact ih hn
  | case4 segs => rw [parseScalar]; exact ⟨_, rfl⟩
  | case5 r tr ih => rw [ps_into]; exact ih hn
  | case7 r a tr ih2 ih1 =>
    obtain ⟨x, hx, hn⟩ := obind_some hn
    obtain ⟨y, hy, hn⟩ := obind_some hn
    obtain ⟨l, hl⟩ := ih2 hx
    obtain ⟨s, hs⟩ := ih1 hy
    exact ⟨.add l s, by rw [ps_add, hl, hs]; rfl⟩
  | case8 r a tr _ ih2 ih1 =>
    obtain ⟨x, hx, hn⟩ := obind_some hn
    obtain ⟨y, hy, hn⟩ := obind_some hn
    obtain ⟨l, hl⟩ := ih2 hx
    obtain ⟨s, hs⟩ := ih1 hy
    exact ⟨.mul l s, by rw [ps_mul, hl, hs]; rfl⟩
  | _ => cases hn

theorem parseRw_num_ok {rt : Runtime} {M : Nat} (hM : M < u128Size) {e : Expr} {n : Nat} (hn : num (saturating M) rt e = some n) :
    ∃ t, parseRw e = .ok t := by
  obtain ⟨t, ht⟩ := parseScalar_num_ok hM hn
  unfold parseRw
  split
  · rename_i l
    rw [parseScalar] at ht
    obtain ⟨m, hm, _⟩ := bind_eq_ok ht
    rw [hm]
    exact ⟨_, rfl⟩
  · rw [ht]; exact ⟨_, rfl⟩

theorem parseExpression_num_ok {rt : Runtime} {A : Arith} {e : Expr} {n : Nat} (hn : num A rt e = some n) (hl : NoLit e) :
    ∃ t, parseExpression e = .ok t := by
  fun_induction num A rt e generalizing n with
  | case1 d => exact hl.elim
  | case2 e ih => rw [parseExpression]; exact ih hn hl
  | case3 e ih => rw [parseExpression]; exact ih hn hl
  | case4 segs => rw [parseExpression]; exact ⟨_, rfl⟩
  | case5 r tr ih => rw [pe_into]; exact ih hn hl
  | case7 r a tr ih2 ih1 =>
    obtain ⟨x, hx, hn⟩ := obind_some hn
    obtain ⟨y, hy, hn⟩ := obind_some hn
    obtain ⟨l, hl'⟩ := ih2 hx hl.1
    obtain ⟨s, hs⟩ := ih1 hy hl.2
    exact ⟨.add l s, by rw [pe_add, hl', hs]; rfl⟩
  | case8 r a tr _ ih2 ih1 =>
    obtain ⟨x, hx, hn⟩ := obind_some hn
    obtain ⟨y, hy, hn⟩ := obind_some hn
    obtain ⟨l, hl'⟩ := ih2 hx hl.1
    obtain ⟨s, hs⟩ := ih1 hy hl.2
    exact ⟨.mul l s, by rw [pe_mul, hl', hs]; rfl⟩
  | _ => cases hn

theorem weight_accepted {rt : Runtime} {M : Nat} (hM : M < 2 ^ 128) {e : Expr} {w : Weight}
    (hw : weight (saturating M) rt e = some w) (hm : FactorsNoLit e) : ∃ t, parseExpression e = .ok t := by
  fun_induction weight (saturating M) rt e generalizing w with
  | case1 e ih => rw [parseExpression]; exact ih hw hm
  | case2 segs tr h => rw [pe_zero h]; exact ⟨_, rfl⟩
  | case4 segs a tr h =>
    obtain ⟨x, hx, hw⟩ := obind_some hw
    obtain ⟨l, hl⟩ := parseScalar_num_ok hM hx
    rw [pe_fromRefTime h, hl]; exact ⟨_, rfl⟩
  | case5 segs a tr _ h =>
    obtain ⟨x, hx, hw⟩ := obind_some hw
    obtain ⟨l, hl⟩ := parseScalar_num_ok hM hx
    rw [pe_fromProofSize h, hl]; exact ⟨_, rfl⟩
  | case7 segs a c tr h =>
    obtain ⟨x, hx, hw⟩ := obind_some hw
    obtain ⟨y, hy, hw⟩ := obind_some hw
    obtain ⟨l, hl⟩ := parseScalar_num_ok hM hx
    obtain ⟨s, hs⟩ := parseScalar_num_ok hM hy
    rw [pe_fromParts h, hl, hs]; exact ⟨_, rfl⟩
  | case9 r tr ih => rw [pe_into]; exact ih hw hm
  | case11 r m a tr h =>
    obtain ⟨rfl, h⟩ := h
    obtain ⟨x, hx, hw⟩ := obind_some hw
    obtain ⟨l, hl⟩ := parseRw_num_ok hM hx
    rw [pe_reads, isDb_validate h, hl]; exact ⟨_, rfl⟩
  | case12 r m a tr _ h =>
    obtain ⟨rfl, h⟩ := h
    obtain ⟨x, hx, hw⟩ := obind_some hw
    obtain ⟨l, hl⟩ := parseRw_num_ok hM hx
    rw [pe_writes, isDb_validate h, hl]; exact ⟨_, rfl⟩
  | case13 r a tr _ _ ih2 ih1 =>
    rw [FactorsNoLit, if_pos rfl] at hm
    obtain ⟨x, hx, hw⟩ := obind_some hw
    obtain ⟨y, hy, hw⟩ := obind_some hw
    obtain ⟨l, hl⟩ := ih2 hx hm.1
    obtain ⟨s, hs⟩ := ih1 hy hm.2
    rw [pe_add, hl, hs]; exact ⟨_, rfl⟩
  | case14 r a tr _ _ _ ih1 =>
    rw [FactorsNoLit, if_neg (by decide), if_pos rfl] at hm
    obtain ⟨x, hx, hw⟩ := obind_some hw
    obtain ⟨y, hy, hw⟩ := obind_some hw
    obtain ⟨l, hl⟩ := ih1 hx hm.1
    obtain ⟨s, hs⟩ := parseExpression_num_ok hy hm.2
    rw [pe_mul, hl, hs]; exact ⟨_, rfl⟩
  | _ => cases hw

/-- C44: every two-dimensional weight expression is accepted, unless a weight is multiplied by a number containing a literal. -/
theorem C44_weight_accepted {rt : Runtime} {M : Nat} (hM : M < 2 ^ 128) {e : Expr} {w : Weight}
    (hw : weight (saturating M) rt e = some w) (hm : FactorsNoLit e) : ∃ t, parseBody e = .ok t := by
  obtain ⟨t, ht⟩ := weight_accepted hM hw hm
  exact ⟨t, by rw [parseBody, ht]⟩

theorem parseScalar_legacy_ok {rt : Runtime} {M : Nat} (hM : M < u128Size) {e : Expr} {n : Nat}
    (hn : legacy (saturating M) rt e = some n) : ∃ t, parseScalar e = .ok t := by
  fun_induction legacy (saturating M) rt e generalizing n with
  | case1 d => exact ⟨.scalar n, by rw [parseScalar, litToValue_saturating hM hn]; rfl⟩
  | case2 e ih => rw [parseScalar]; exact ih hn
  | case3 e ih => rw [parseScalar]; exact ih hn
  | case4 segs => rw [parseScalar]; exact ⟨_, rfl⟩
  | case5 segs tr h => rw [ps_zero h]; exact ⟨_, rfl⟩
  | case7 segs a tr h ih => rw [ps_fromRefTime h]; exact ih hn
  | case9 r m tr h ih =>
    rcases h with rfl | rfl
    · rw [ps_into]; exact ih hn
    · rw [ps_refTime]; exact ih hn
  | case11 r m a tr h ih =>
    obtain ⟨rfl, h⟩ := h
    obtain ⟨x, hx, hn⟩ := obind_some hn
    obtain ⟨l, hl⟩ := ih hx
    rw [ps_reads, isDb_validate h, hl]; exact ⟨_, rfl⟩
  | case12 r m a tr _ h ih =>
    obtain ⟨rfl, h⟩ := h
    obtain ⟨x, hx, hn⟩ := obind_some hn
    obtain ⟨l, hl⟩ := ih hx
    rw [ps_writes, isDb_validate h, hl]; exact ⟨_, rfl⟩
  | case13 r a tr _ _ ih2 ih1 =>
    obtain ⟨x, hx, hn⟩ := obind_some hn
    obtain ⟨y, hy, hn⟩ := obind_some hn
    obtain ⟨l, hl⟩ := ih2 hx
    obtain ⟨s, hs⟩ := ih1 hy
    rw [ps_add, hl, hs]; exact ⟨_, rfl⟩
  | case14 r a tr _ _ _ ih2 ih1 =>
    obtain ⟨x, hx, hn⟩ := obind_some hn
    obtain ⟨y, hy, hn⟩ := obind_some hn
    obtain ⟨l, hl⟩ := ih2 hx
    obtain ⟨s, hs⟩ := ih1 hy
    rw [ps_mul, hl, hs]; exact ⟨_, rfl⟩
  | _ => cases hn

/-- The computation ends with a value or an error. -/
def Clean {α : Type} (r : Res α) : Prop := (∃ a, r = .ok a) ∨ ∃ m, r = .err m

theorem clean_bind {α β : Type} {x : Res α} {f : α → Res β} (hx : Clean x) (hf : ∀ a, x = .ok a → Clean (f a)) : Clean (x >>= f) := by
  rcases hx with ⟨a, rfl⟩ | ⟨m, rfl⟩
  · exact hf a rfl
  · exact .inr ⟨m, rfl⟩

theorem clean_ok {α : Type} (a : α) : Clean (.ok a) := .inl ⟨a, rfl⟩

theorem parseRw_legacy_ok {rt : Runtime} {M : Nat} (hM : M < u128Size) {e : Expr} {n : Nat} (hn : legacy (saturating M) rt e = some n) :
    ∃ t, parseRw e = .ok t := by
  obtain ⟨t, ht⟩ := parseScalar_legacy_ok hM hn
  unfold parseRw
  split
  · rename_i l
    rw [parseScalar] at ht
    obtain ⟨m, hm, _⟩ := bind_eq_ok ht
    rw [hm]
    exact ⟨_, rfl⟩
  · rw [ht]; exact ⟨_, rfl⟩

theorem parseExpression_legacy_clean {rt : Runtime} {M : Nat} (hM : M < u128Size) {e : Expr} {n : Nat}
    (hn : legacy (saturating M) rt e = some n) : Clean (parseExpression e) := by
  fun_induction legacy (saturating M) rt e generalizing n with
  | case1 d => rw [parseExpression]; exact .inr ⟨_, rfl⟩
  | case2 e ih => rw [parseExpression]; exact ih hn
  | case3 e ih => rw [parseExpression]; exact ih hn
  | case4 segs => rw [parseExpression]; exact clean_ok _
  | case5 segs tr h => rw [pe_zero h]; exact clean_ok _
  | case7 segs a tr h ih =>
    obtain ⟨l, hl⟩ := parseScalar_legacy_ok hM hn
    rw [pe_fromRefTime h, hl]; exact clean_ok _
  | case9 r m tr h ih =>
    rcases h with rfl | rfl
    · rw [pe_into]; exact ih hn
    · rw [pe_refTime]; exact .inr ⟨_, rfl⟩
  | case11 r m a tr h ih =>
    obtain ⟨rfl, h⟩ := h
    obtain ⟨x, hx, hn⟩ := obind_some hn
    obtain ⟨l, hl⟩ := parseRw_legacy_ok hM hx
    rw [pe_reads, isDb_validate h, hl]; exact clean_ok _
  | case12 r m a tr _ h ih =>
    obtain ⟨rfl, h⟩ := h
    obtain ⟨x, hx, hn⟩ := obind_some hn
    obtain ⟨l, hl⟩ := parseRw_legacy_ok hM hx
    rw [pe_writes, isDb_validate h, hl]; exact clean_ok _
  | case13 r a tr _ _ ih2 ih1 =>
    obtain ⟨x, hx, hn⟩ := obind_some hn
    obtain ⟨y, hy, hn⟩ := obind_some hn
    rw [pe_add]
    exact clean_bind (ih2 hx) fun _ _ => clean_bind (ih1 hy) fun _ _ => clean_ok _
  | case14 r a tr _ _ _ ih2 ih1 =>
    obtain ⟨x, hx, hn⟩ := obind_some hn
    obtain ⟨y, hy, hn⟩ := obind_some hn
    rw [pe_mul]
    exact clean_bind (ih2 hx) fun _ _ => clean_bind (ih1 hy) fun _ _ => clean_ok _
  | _ => cases hn

/-- C44: every one-dimensional weight expression is accepted. -/
theorem C44_legacy_accepted {rt : Runtime} {M : Nat} (hM : M < 2 ^ 128) {e : Expr} {n : Nat}
    (hn : legacy (saturating M) rt e = some n) : ∃ t, parseBody e = .ok t := by
  rcases parseExpression_legacy_clean hM hn with ⟨t, ht⟩ | ⟨m, ht⟩
  · exact ⟨t, by rw [parseBody, ht]⟩
  · obtain ⟨t, hs⟩ := parseScalar_legacy_ok hM hn
    exact ⟨_, by rw [parseBody, ht]; dsimp only; rw [hs]; rfl⟩

/-! ### Templates -/

theorem tlit_num {M : Nat} {e : Expr} (h : TLit M e) (rt : Runtime) : ∃ n, num (saturating M) rt e = some n := by
  induction h with
  | @lit digits n h hn => exact ⟨n, by simp [num, h, saturating, hn]⟩
  | paren _ ih => rw [num]; exact ih
  | cast _ ih => rw [num]; exact ih

theorem tlit_anchor {M : Nat} {e : Expr} (h : TLit M e) : Anchor e := by
  induction h with
  | lit => trivial
  | paren _ ih => exact ih
  | cast _ ih => exact ih

theorem tcomp_num {e : Expr} (h : TComp e) (A : Arith) (rt : Runtime) : ∃ n, num A rt e = some n := by
  induction h with
  | @path c h1 h2 =>
    have : joinStr (str% "::") [c] = c := by simp [joinStr]
    exact ⟨rt.comp c, by rw [num, named, this]; simp [h1, h2]⟩
  | into _ ih => rw [num, if_pos rfl]; exact ih
  | paren _ ih => rw [num]; exact ih
  | cast _ ih => rw [num]; exact ih

theorem tcomp_noLit {e : Expr} (h : TComp e) : NoLit e := by
  induction h with
  | path => trivial
  | into _ ih => exact ih
  | paren _ ih => exact ih
  | cast _ ih => exact ih

theorem tcount_num {M : Nat} {e : Expr} (h : TCount M e) (rt : Runtime) : ∃ n, num (saturating M) rt e = some n := by
  induction h with
  | lit h => exact tlit_num h rt
  | mul h hc =>
    obtain ⟨x, hx⟩ := tlit_num h rt
    obtain ⟨y, hy⟩ := tcomp_num hc (saturating M) rt
    exact ⟨_, by rw [num, if_neg (by decide), if_pos rfl, hx, hy]; rfl⟩
  | paren _ ih => rw [num]; exact ih

theorem tbase_weight {M : Nat} {e : Expr} (h : TBase M e) (rt : Runtime) :
    (∃ w, weight (saturating M) rt e = some w) ∧ FactorsNoLit e ∧ Anchored2 e := by
  induction h with
  | parts h ha hc =>
    obtain ⟨x, hx⟩ := tlit_num ha rt
    obtain ⟨y, hy⟩ := tlit_num hc rt
    exact ⟨⟨_, by rw [weight, if_pos h, hx, hy]; rfl⟩, trivial, tlit_anchor ha, tlit_anchor hc⟩
  | refTime h ha =>
    obtain ⟨x, hx⟩ := tlit_num ha rt
    exact ⟨⟨_, by rw [weight, if_pos h, hx]; rfl⟩, trivial, tlit_anchor ha⟩
  | paren _ ih => exact ⟨by rw [weight]; exact ih.1, ih.2⟩

theorem tsummand_weight {M : Nat} {e : Expr} (h : TSummand M e) (rt : Runtime) :
    (∃ w, weight (saturating M) rt e = some w) ∧ FactorsNoLit e ∧ Anchored2 e := by
  cases h with
  | base h => exact tbase_weight h rt
  | slope h hc =>
    obtain ⟨⟨w, hw⟩, h1, h2⟩ := tbase_weight h rt
    obtain ⟨y, hy⟩ := tcomp_num hc (saturating M) rt
    refine ⟨⟨_, by rw [weight, if_neg (by simp), if_neg (by simp), if_neg (by decide), if_pos rfl, hw, hy]; rfl⟩, ?_, ?_⟩
    · exact ⟨h1, tcomp_noLit hc⟩
    · exact h2
  | reads hd h =>
    obtain ⟨y, hy⟩ := tcount_num h rt
    exact ⟨⟨_, by rw [weight, if_pos ⟨rfl, hd⟩, hy]; rfl⟩, trivial, trivial⟩
  | writes hd h =>
    obtain ⟨y, hy⟩ := tcount_num h rt
    exact ⟨⟨_, by rw [weight, if_neg (by simp), if_pos ⟨rfl, hd⟩, hy]; rfl⟩, trivial, trivial⟩

theorem template_weight {M : Nat} {e : Expr} (h : Template M e) (rt : Runtime) :
    (∃ w, weight (saturating M) rt e = some w) ∧ FactorsNoLit e ∧ Anchored2 e := by
  induction h with
  | base h => exact tbase_weight h rt
  | add _ hs ih =>
    obtain ⟨⟨w, hw⟩, h1, h2⟩ := ih
    obtain ⟨⟨v, hv⟩, h3, h4⟩ := tsummand_weight hs rt
    refine ⟨⟨_, by rw [weight, if_neg (by simp), if_neg (by simp), if_pos rfl, hw, hv]; rfl⟩, ?_, ?_⟩
    · exact ⟨h1, h3⟩
    · exact ⟨h2, h4⟩

/-- C44: every function body of the benchmarking template (any number of summands, literals up to any `M` below 2^128, components not
called READ or WRITE) is accepted, and the equation means what the runtime computes. -/
theorem C44_template {M : Nat} (hM : M < 2 ^ 128) {e : Expr} (h : Template M e) :
    ∃ t, parseBody e = .ok t ∧ ∀ rt : Runtime, (∀ x, rt.comp x ≤ M) →
      ∃ w, weight (saturating M) rt e = some w ∧ ∀ d, coord d w = min (cvalue d (rt.env d) t) M := by
  obtain ⟨⟨w, hw⟩, h1, h2⟩ := template_weight h ⟨fun _ => 0, 0, 0⟩
  obtain ⟨t, ht⟩ := C44_weight_accepted hM hw h1
  refine ⟨t, ht, fun rt hrt => ?_⟩
  obtain ⟨⟨w, hw⟩, _, _⟩ := template_weight h rt
  exact ⟨w, hw, fun d => C43_weight_saturating hrt hw h2 ht d⟩

theorem num_legacy {A : Arith} {rt : Runtime} {e : Expr} {n : Nat} (h : num A rt e = some n) : legacy A rt e = some n := by
  fun_induction num A rt e generalizing n with
  | case1 d => exact h
  | case2 e ih => rw [legacy]; exact ih h
  | case3 e ih => rw [legacy]; exact ih h
  | case4 segs => exact h
  | case5 r tr ih => rw [legacy, if_pos (.inl rfl)]; exact ih h
  | case7 r a tr ih2 ih1 =>
    obtain ⟨x, hx, h⟩ := obind_some h
    obtain ⟨y, hy, h⟩ := obind_some h
    rw [legacy, if_neg (by simp), if_neg (by simp), if_pos rfl, ih2 hx, ih1 hy]
    exact h
  | case8 r a tr _ ih2 ih1 =>
    obtain ⟨x, hx, h⟩ := obind_some h
    obtain ⟨y, hy, h⟩ := obind_some h
    rw [legacy, if_neg (by simp), if_neg (by simp), if_neg (by decide), if_pos rfl, ih2 hx, ih1 hy]
    exact h
  | _ => cases h

theorem template1_legacy {M : Nat} {e : Expr} (h : Template1 M e) (rt : Runtime) : ∃ n, legacy (saturating M) rt e = some n := by
  induction h with
  | base h => obtain ⟨n, hn⟩ := tlit_num h rt; exact ⟨n, num_legacy hn⟩
  | @add _ s _ _ hs ih =>
    obtain ⟨x, hx⟩ := ih
    have : ∃ y, legacy (saturating M) rt s = some y := by
      cases hs with
      | base h => obtain ⟨n, hn⟩ := tlit_num h rt; exact ⟨n, num_legacy hn⟩
      | slope h hc => obtain ⟨n, hn⟩ := tcount_num (.mul h hc) rt; exact ⟨n, num_legacy hn⟩
      | reads hd h =>
        obtain ⟨n, hn⟩ := tcount_num h rt
        exact ⟨_, by rw [legacy, if_pos ⟨rfl, hd⟩, num_legacy hn]; rfl⟩
      | writes hd h =>
        obtain ⟨n, hn⟩ := tcount_num h rt
        exact ⟨_, by rw [legacy, if_neg (by simp), if_pos ⟨rfl, hd⟩, num_legacy hn]; rfl⟩
    obtain ⟨y, hy⟩ := this
    exact ⟨_, by rw [legacy, if_neg (by simp), if_neg (by simp), if_pos rfl, hx, hy]; rfl⟩

theorem tlit_err {M : Nat} {e : Expr} (h : TLit M e) : ∃ m, parseExpression e = .err m := by
  induction h with
  | lit => exact ⟨_, rfl⟩
  | paren _ ih => rw [parseExpression]; exact ih
  | cast _ ih => rw [parseExpression]; exact ih

theorem template1_err {M : Nat} {e : Expr} (h : Template1 M e) : ∃ m, parseExpression e = .err m := by
  induction h with
  | base h => exact tlit_err h
  | add _ _ ih => obtain ⟨m, hm⟩ := ih; rw [pe_add, hm]; exact ⟨m, rfl⟩

theorem tlit_scalar {M : Nat} {e : Expr} (h : TLit M e) {t : SimpleTerm} (ht : parseScalar e = .ok t) : ∃ n, t = .scalar n := by
  induction h with
  | lit =>
    rw [parseScalar] at ht
    obtain ⟨m, _, h⟩ := bind_eq_ok ht
    cases h
    exact ⟨m, rfl⟩
  | paren _ ih => rw [parseScalar] at ht; exact ih ht
  | cast _ ih => rw [parseScalar] at ht; exact ih ht

theorem template1_proof {M : Nat} {e : Expr} (h : Template1 M e) {t : SimpleTerm} (ht : parseScalar e = .ok t) (rt : Runtime) :
    cvalue .proof (rt.env .proof) (intoChromatic .time t) = 0 := by
  induction h generalizing t with
  | base h => obtain ⟨n, rfl⟩ := tlit_scalar h ht; rfl
  | add _ hs ih =>
    rw [ps_add] at ht
    obtain ⟨l, hl, ht⟩ := bind_eq_ok ht
    obtain ⟨s, hs', ht⟩ := bind_eq_ok ht
    cases ht
    rw [intoChromatic, cvalue, ih hl, Nat.zero_add]
    cases hs with
    | base h => obtain ⟨n, rfl⟩ := tlit_scalar h hs'; rfl
    | slope h hc =>
      rw [ps_mul] at hs'
      obtain ⟨x, hx, hs'⟩ := bind_eq_ok hs'
      obtain ⟨y, hy, hs'⟩ := bind_eq_ok hs'
      cases hs'
      obtain ⟨n, rfl⟩ := tlit_scalar h hx
      exact Nat.zero_mul _
    | reads hd h =>
      rw [ps_reads] at hs'
      obtain ⟨_, _, hs'⟩ := bind_eq_ok hs'
      obtain ⟨y, hy, hs'⟩ := bind_eq_ok hs'
      cases hs'
      exact Nat.mul_zero _
    | writes hd h =>
      rw [ps_writes] at hs'
      obtain ⟨_, _, hs'⟩ := bind_eq_ok hs'
      obtain ⟨y, hy, hs'⟩ := bind_eq_ok hs'
      cases hs'
      exact Nat.mul_zero _

/-- C44 for the old one-dimensional template: accepted, the time is what the runtime computes, and the proof size is zero. -/
theorem C44_template1 {M : Nat} (hM : M < 2 ^ 128) {e : Expr} (h : Template1 M e) :
    ∃ t, parseBody e = .ok t ∧ ∀ rt : Runtime, (∀ x, rt.comp x ≤ M) →
      ∃ n, legacy (saturating M) rt e = some n ∧ n = min (cvalue .time (rt.env .time) t) M ∧ cvalue .proof (rt.env .proof) t = 0 := by
  obtain ⟨n, hn⟩ := template1_legacy h ⟨fun _ => 0, 0, 0⟩
  obtain ⟨t, ht⟩ := C44_legacy_accepted hM hn
  refine ⟨t, ht, fun rt hrt => ?_⟩
  obtain ⟨n, hn⟩ := template1_legacy h rt
  refine ⟨n, hn, C43_legacy_saturating hrt hn ht, ?_⟩
  obtain ⟨m, hm⟩ := template1_err h
  rw [parseBody, hm] at ht
  dsimp only at ht
  obtain ⟨s, hs, h'⟩ := bind_eq_ok ht
  cases h'
  exact template1_proof h hs rt

/-! ### Examples -/

private def lit (s : Str) : Expr := .lit (.int s)
private def comp (s : Str) : Expr := .methodCall (.path [s]) (str% "into") [] false
private def parts (a c : Expr) : Expr := .call (.path [str% "Weight", str% "from_parts"]) [a, c] false
private def db : Expr := .call (.path [str% "T", str% "DbWeight", str% "get"]) [] false
private def plus (a c : Expr) : Expr := .methodCall a (str% "saturating_add") [c] false
private def times (a c : Expr) : Expr := .methodCall a (str% "saturating_mul") [c] false

/-- `Weight::from_parts(1000, 20).saturating_add(Weight::from_parts(7, 3).saturating_mul(n.into()))`
`.saturating_add(T::DbWeight::get().reads((2).saturating_mul(n.into())))` -/
private def body : Expr :=
  plus (plus (parts (lit (str% "1000")) (lit (str% "20"))) (times (parts (lit (str% "7")) (lit (str% "3"))) (comp (str% "n"))))
    (.methodCall db (str% "reads") [times (.paren (lit (str% "2"))) (comp (str% "n"))] false)

private def rt5 : Runtime := ⟨fun _ => 5, 100, 200⟩

example : Template (2 ^ 64 - 1) body :=
  .add (.add (.base (.parts (by decide) (.lit (n := 1000) (by decide) (by decide)) (.lit (n := 20) (by decide) (by decide))))
      (.slope (.parts (by decide) (.lit (n := 7) (by decide) (by decide)) (.lit (n := 3) (by decide) (by decide)))
        (.into (.path (by decide) (by decide)))))
    (.reads (by decide) (.mul (.paren (.lit (n := 2) (by decide) (by decide))) (.into (.path (by decide) (by decide)))))

example : weight exact rt5 body = some ⟨2035, 35⟩ := by decide
example : Anchored2 body := by simp [Anchored2, body, plus, times, parts, lit, Anchor]
example : ∃ t, parseBody body = .ok t ∧ cvalue .time (rt5.env .time) t = 2035 ∧ cvalue .proof (rt5.env .proof) t = 35 :=
  ⟨_, rfl, by decide, by decide⟩
example : weight (saturating 2000) rt5 body = some ⟨2000, 35⟩ := by decide

/-- `(1000 as Weight).saturating_add((7 as Weight).saturating_mul(n as Weight)).saturating_add(T::DbWeight::get().writes(2 as Weight))` -/
private def body1 : Expr :=
  plus (plus (.paren (.cast (lit (str% "1000")))) (times (.paren (.cast (lit (str% "7")))) (.cast (.path [str% "n"]))))
    (.methodCall db (str% "writes") [.cast (lit (str% "2"))] false)

example : Template1 (2 ^ 64 - 1) body1 :=
  .add (.add (.base (.paren (.cast (.lit (n := 1000) (by decide) (by decide)))))
      (.slope (.paren (.cast (.lit (n := 7) (by decide) (by decide)))) (.cast (.path (by decide) (by decide)))))
    (.writes (by decide) (.lit (.cast (.lit (n := 2) (by decide) (by decide)))))

example : legacy exact rt5 body1 = some 1435 := by decide
example : ∃ t, parseBody body1 = .ok t ∧ cvalue .time (rt5.env .time) t = 1435 := ⟨_, rfl, by decide⟩

/-- C43 fails without anchoring: in `Weight::from_parts(10, n.into())` the component leaks into the time dimension. -/
theorem C43_false_unanchored : ∃ (rt : Runtime) (e : Expr) (w : Weight) (t : ChromaticTerm),
    weight exact rt e = some w ∧ parseBody e = .ok t ∧ cvalue .time (rt.env .time) t ≠ w.time :=
  ⟨rt5, parts (lit (str% "10")) (comp (str% "n")), ⟨10, 5⟩, _, by decide, rfl, by decide⟩

/-- A weight multiplied by a literal is refused if it has a proof part: `Weight::from_parts(10, 3).saturating_mul(2)`. -/
theorem C44_literal_factor_refused : ∃ (rt : Runtime) (e : Expr) (w : Weight),
    weight (saturating (2 ^ 64 - 1)) rt e = some w ∧ ∃ m, parseBody e = .err m :=
  ⟨rt5, times (parts (lit (str% "10")) (lit (str% "3"))) (lit (str% "2")), ⟨20, 6⟩, by decide, _, rfl⟩

/-- Argument lists with a trailing comma are not looked at: `Weight::zero(n,)` (which does not compile) is read as zero. -/
theorem C43_trailing_comma_ignored (a : Expr) : parseBody (.call (.path [str% "Weight", str% "zero"]) [a] true) = .ok (.value ⟨0, 0⟩) := rfl

end Swc
