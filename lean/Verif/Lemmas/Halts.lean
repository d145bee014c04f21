/-
No part of a comparison fails to return: parsing always ends, and so does comparing what has been parsed (in both builds; the one function
that can loop, evaluation in a cyclic scope, is only applied to scopes that bind variables to numbers).
-/
import Verif.Props.ParseFile
import Verif.Props.CompareFiles

namespace Swc

open Spec Term

variable {α β : Type}

/-- The computation returns (it may panic). -/
def Halts (r : Res α) : Prop := r ≠ .diverge

theorem halts_ok (a : α) : Halts (.ok a) := by intro h; cases h
theorem halts_err (m : Str) : Halts (.err m : Res α) := by intro h; cases h
theorem halts_panic : Halts (.panic : Res α) := by intro h; cases h

theorem halts_bind {x : Res α} {f : α → Res β} (hx : Halts x) (hf : ∀ a, Halts (f a)) : Halts (x >>= f) := by
  cases x with
  | ok a => exact hf a
  | err m => exact halts_err m
  | panic => exact halts_panic
  | diverge => exact absurd rfl hx

theorem halts_clean {r : Res α} (h : Clean r) : Halts r := by
  rcases h with ⟨a, rfl⟩ | ⟨m, rfl⟩
  · exact halts_ok a
  · exact halts_err m

theorem litToValue_halts (l : Lit) : Halts (litToValue l) := by
  unfold litToValue
  split
  · unfold Res.unwrap
    split
    · exact halts_ok _
    · exact halts_panic
  · exact halts_panic

theorem parseScalar_halts (e : Expr) : Halts (parseScalar e) := by
  fun_induction parseScalar e with
  | case1 e ih => exact ih
  | case2 e ih => exact ih
  | case3 l => exact halts_bind (litToValue_halts l) fun _ => halts_ok _
  | case4 => exact halts_ok _
  | case5 r args tr _ ih => exact ih
  | case7 r args tr _ ih =>
    refine halts_bind (halts_clean (validateDbCall_clean r)) fun _ => ?_
    split at ih
    · exact halts_bind ih fun _ => halts_ok _
    · exact halts_err _
  | case8 r args tr _ _ ih =>
    refine halts_bind (halts_clean (validateDbCall_clean r)) fun _ => ?_
    split at ih
    · exact halts_bind ih fun _ => halts_ok _
    · exact halts_err _
  | case9 r args tr _ _ _ ih2 ih =>
    refine halts_bind ih2 fun _ => ?_
    split at ih
    · exact halts_bind ih fun _ => halts_ok _
    · exact halts_err _
  | case10 r args tr _ _ _ _ ih2 ih =>
    refine halts_bind ih2 fun _ => ?_
    split at ih
    · exact halts_bind ih fun _ => halts_ok _
    · exact halts_err _
  | case11 r args tr _ _ _ _ _ ih => exact ih
  | case13 f args tr ih =>
    refine halts_bind (halts_clean (functionName_clean f)) fun _ => ?_
    split
    · split at ih
      · exact ih
      · exact halts_err _
    · split
      · split
        · exact halts_ok _
        · exact halts_err _
      · exact halts_err _
  | _ => exact halts_err _

theorem parseRw_halts (e : Expr) : Halts (parseRw e) := by
  unfold parseRw
  split
  · exact halts_bind (litToValue_halts _) fun _ => halts_ok _
  · exact halts_bind (parseScalar_halts _) fun _ => halts_ok _

theorem parseCall_halts (f : Expr) (args : List Expr) (tr : Bool) : Halts (parseCall f args tr) := by
  unfold parseCall
  refine halts_bind (halts_clean (functionName_clean f)) fun _ => ?_
  split
  · split
    · exact halts_bind (parseScalar_halts _) fun _ => halts_ok _
    · exact halts_err _
  · split
    · split
      · exact halts_bind (parseScalar_halts _) fun _ => halts_ok _
      · exact halts_err _
    · split
      · split
        · exact halts_bind (parseScalar_halts _) fun _ => halts_bind (parseScalar_halts _) fun _ => halts_ok _
        · exact halts_err _
      · split
        · split
          · exact halts_ok _
          · exact halts_err _
        · exact halts_err _

theorem parseExpression_halts (e : Expr) : Halts (parseExpression e) := by
  fun_induction parseExpression e with
  | case1 e ih => exact ih
  | case2 e ih => exact ih
  | case3 => exact halts_ok _
  | case4 f args tr => exact parseCall_halts f args tr
  | case5 r args tr =>
    refine halts_bind (halts_clean (validateDbCall_clean r)) fun _ => ?_
    split
    · exact halts_bind (parseRw_halts _) fun _ => halts_ok _
    · exact halts_err _
  | case6 r args tr =>
    refine halts_bind (halts_clean (validateDbCall_clean r)) fun _ => ?_
    split
    · exact halts_bind (parseRw_halts _) fun _ => halts_ok _
    · exact halts_err _
  | case7 r args tr _ _ ih2 ih =>
    refine halts_bind ih2 fun _ => ?_
    split at ih
    · exact halts_bind ih fun _ => halts_ok _
    · exact halts_err _
  | case8 r args tr _ _ _ ih2 ih =>
    refine halts_bind ih2 fun _ => ?_
    split at ih
    · exact halts_bind ih fun _ => halts_ok _
    · exact halts_err _
  | case9 r args tr _ _ _ _ ih => exact ih
  | _ => exact halts_err _

theorem parseBody_halts (e : Expr) : Halts (parseBody e) := by
  unfold parseBody
  have := parseExpression_halts e
  split
  · exact halts_bind (parseScalar_halts e) fun _ => halts_ok _
  · exact this

theorem handleMethod_halts (cc : CharClass) (f : ImplFn) : Halts (handleMethod cc f) := by
  unfold handleMethod
  refine halts_bind (halts_clean (checkOutput_clean _ _)) fun _ => halts_bind ?_ fun e => halts_bind (parseBody_halts e) fun _ =>
    halts_bind ?_ fun _ => halts_ok _
  · unfold onlyExpr
    split
    · exact halts_ok _
    · exact halts_panic
    · exact halts_err _
  · exact halts_bind (halts_clean (collectRanges_clean _ _ _)) fun _ => halts_ok _

theorem handleItem_halts (cc : CharClass) (pallet : Str) (i : Item) : Halts (handleItem cc pallet i) := by
  cases i with
  | impl ty its =>
    rw [handleItem]
    refine halts_bind (halts_clean (checkSelfTy_clean ty)) fun _ => halts_bind ?_ fun _ => ?_
    · induction its with
      | nil => exact halts_ok _
      | cons i its ih =>
        cases i with
        | other => rw [handleMethods]; exact ih
        | fn f =>
          rw [handleMethods]
          exact halts_bind (handleMethod_halts cc f) fun _ => halts_bind ih fun _ => halts_ok _
    · split
      · exact halts_err _
      · exact halts_ok _
  | _ => exact halts_err _

theorem firstOk_halts {f : Item → Res α} (hf : ∀ i, Halts (f i)) (msg : Str) (l : List Item) : Halts (firstOk f msg l) := by
  induction l with
  | nil => exact halts_err _
  | cons i l ih =>
    rw [firstOk]
    have := hf i
    split
    · exact ih
    · exact this

theorem parseContent_halts (syn : SynParser) (cc : CharClass) (pallet content : Str) : Halts (parseContent syn cc pallet content) := by
  unfold parseContent
  split
  · exact halts_err _
  · exact firstOk_halts (handleItem_halts cc pallet) _ _

theorem parseFileInRepo_halts (env : Env) (fs : Fs) (repo file : Path) : Halts (parseFileInRepo env fs repo file) := by
  unfold parseFileInRepo
  refine halts_bind ?_ fun _ => halts_bind (halts_ok _) fun _ => ?_
  · unfold readFile
    split
    · exact halts_ok _
    · exact halts_err _
  · unfold withFile
    have := parseContent_halts env.syn env.cc
    split
    · exact halts_err _
    · exact this _ _

theorem parseAll_halts {f : Path → Res (List ChromaticExtrinsic)} (hf : ∀ p, Halts (f p)) (l : List Path) : Halts (parseAll f l) := by
  induction l with
  | nil => exact halts_ok _
  | cons p l ih => exact halts_bind (hf p) fun _ => halts_bind ih fun _ => halts_ok _

theorem tryParseAll_halts {f : Path → Res (List ChromaticExtrinsic)} (hf : ∀ p, Halts (f p)) (l : List Path) : Halts (tryParseAll f l) := by
  induction l with
  | nil => exact halts_ok _
  | cons p l ih =>
    rw [tryParseAll]
    have := hf p
    split
    · exact halts_bind (halts_ok _) fun _ => halts_bind ih fun _ => halts_ok _
    · exact halts_bind this fun _ => halts_bind ih fun _ => halts_ok _

theorem compareExtrinsics_halts (b : Build) (ho : HashOrder) (old new : Option SimpleExtrinsic) (params : CompareParams) :
    Halts (compareExtrinsics b ho old new params) := by
  by_cases h : old ≠ none ∨ new ≠ none
  · by_cases hr : Refused params.method old new
    · cases b with
      | release => obtain ⟨m, e⟩ := (C26_total_release ho old new params h).1 hr; rw [e]; exact halts_err _
      | debug => obtain ⟨m, e⟩ := (C26_total_debug ho old new params h).1 hr; rw [e]; exact halts_err _
    · cases b with
      | release => obtain ⟨m, e⟩ := (C26_total_release ho old new params h).2 hr; rw [e]; exact halts_ok _
      | debug =>
        rcases (C26_total_debug ho old new params h).2 hr with ⟨m, e⟩ | ⟨e, -⟩
        · rw [e]; exact halts_ok _
        · rw [e]; exact halts_panic
  · push Not at h
    obtain ⟨rfl, rfl⟩ := h
    exact halts_panic

theorem diffOne_halts (b : Build) (ho : HashOrder) (olds news : List SimpleExtrinsic) (params : CompareParams) (p e : Str) :
    Halts (diffOne b ho olds news params p e) := by
  unfold diffOne
  have h1 := compareExtrinsics_halts b ho (findExtrinsic olds p e) (findExtrinsic news p e) params
  dsimp only
  cases hc : compareExtrinsics b ho (findExtrinsic olds p e) (findExtrinsic news p e) params with
  | ok c =>
    dsimp only
    split
    · exact halts_panic
    · rename_i x hx
      cases hs : sanityCheckTerm x.term with
      | ok => exact halts_ok _
      | err m => exact halts_ok _
      | panic => exact halts_panic
      | diverge => rw [(C15_flags_iff x.term).2 (by rw [hs]; simp)] at hs; cases hs
  | err m => exact halts_ok _
  | panic => exact halts_panic
  | diverge => exact absurd hc h1

/-- C26/C32: comparing files always returns. -/
theorem compareFiles_halts (b : Build) (ho : HashOrder) (rx : RegexEngine) (olds news : List ChromaticExtrinsic) (params : CompareParams)
    (filter : FilterParams) : Halts (compareFiles b ho rx olds news params filter) := by
  rw [compareFiles_eq]
  have hcomp : ∀ o : Option Str, Halts (rx.compileOpt o) := by
    intro o
    cases o with
    | none => exact halts_ok _
    | some q =>
      rw [RegexEngine.compileOpt]
      split
      · exact halts_ok _
      · exact halts_err _
  refine halts_bind (hcomp _) fun _ => halts_bind (hcomp _) fun _ => ?_
  intro h
  obtain ⟨a, -, h⟩ := mapM_diverge h
  exact halts_bind (diffOne_halts _ _ _ _ _ _ _) (fun _ => halts_ok _) h

end Swc
