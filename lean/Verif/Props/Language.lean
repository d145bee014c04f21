/-
C108: exactly which weight functions are understood, which ones are fatal, and which ones are refused.
-/
import Verif.Spec.Language
import Verif.Props.ParseFile

namespace Swc

open Spec Term

theorem bind_eq_panic {α β : Type} {x : Res α} {f : α → Res β} : (x >>= f) = .panic ↔ x = .panic ∨ ∃ a, x = .ok a ∧ f a = .panic := by
  cases x with
  | ok a => simp
  | err m => simp
  | panic => simp
  | diverge => simp

/-! ### Expressions -/

theorem litToValue_iff (l : Lit) (n : Nat) : litToValue l = .ok n ↔ LitValue l n := by
  unfold LitValue
  cases l with
  | other => simp [litToValue]
  | int s =>
    rw [litToValue]
    constructor
    · intro h
      have h : parseUInt u128Size s = some n := by
        cases h' : parseUInt u128Size s with
        | none => rw [h'] at h; cases h
        | some m => rw [h'] at h; cases h; rfl
      have key : ∀ d : Str, (∀ r, d ≠ '+' :: r) → parseUInt u128Size d = some n → readNat d = some n ∧ n < 2 ^ 128 := by
        intro d hp hd
        cases d with
        | nil => cases hd
        | cons c d =>
          have e : parseUInt u128Size (c :: d) = match parseDigits 0 (c :: d) with
              | some n => if n < u128Size then some n else none
              | none => none := by
            unfold parseUInt
            split
            · rename_i heq; exact absurd heq (hp _)
            · rfl
          rw [e, parseDigits_eq] at hd
          rw [readNat]
          cases hr : readDigits 0 (c :: d) with
          | none => rw [hr] at hd; cases hd
          | some m =>
            rw [hr] at hd
            dsimp only at hd
            split at hd
            · cases hd; exact ⟨rfl, by assumption⟩
            · cases hd
      by_cases hp : ∃ r, s = '+' :: r
      · obtain ⟨r, rfl⟩ := hp
        refine ⟨str% "+", r, .inr rfl, rfl, ?_⟩
        cases r with
        | nil => cases h
        | cons c d =>
          have e : parseUInt u128Size ('+' :: c :: d) = match parseDigits 0 (c :: d) with
              | some n => if n < u128Size then some n else none
              | none => none := rfl
          rw [e, parseDigits_eq] at h
          rw [readNat]
          cases hr : readDigits 0 (c :: d) with
          | none => rw [hr] at h; cases h
          | some m =>
            rw [hr] at h
            dsimp only at h
            split at h
            · cases h; exact ⟨rfl, by assumption⟩
            · cases h
      · exact ⟨[], s, .inl rfl, rfl, key s (fun r hr => hp ⟨r, hr⟩) h⟩
    · rintro ⟨sign, digits, hs, he, h1, h2⟩
      cases he
      rcases hs with rfl | rfl
      · rw [List.nil_append, parseUInt_of_readNat h1, if_pos (by exact h2)]; rfl
      · have : parseUInt u128Size (str% "+" ++ digits) = some n := by
          cases digits with
          | nil => cases h1
          | cons c d =>
            have e : parseUInt u128Size (str% "+" ++ c :: d) = match parseDigits 0 (c :: d) with
              | some n => if n < u128Size then some n else none
              | none => none := rfl
            rw [readNat] at h1
            rw [e, parseDigits_eq, h1]
            dsimp only
            rw [if_pos (by exact h2)]
        rw [this]; rfl

theorem litToValue_panic (l : Lit) : litToValue l = .panic ↔ ∀ n, ¬ LitValue l n := by
  constructor
  · intro h n hn
    rw [(litToValue_iff l n).2 hn] at h
    cases h
  · intro h
    cases l with
    | other => rfl
    | int s =>
      have := fun n => mt (litToValue_iff (.int s) n).1 (h n)
      rw [litToValue] at this ⊢
      cases h' : parseUInt u128Size s with
      | none => rfl
      | some m => rw [h'] at this; exact absurd rfl (this m)

theorem validateDbCall_iff (e : Expr) : validateDbCall e = .ok () ↔ DbSource e := by
  unfold DbSource
  cases e with
  | call func args tr =>
    rw [validateDbCall]
    cases func with
    | path segs =>
      rw [validateDbFunc]
      simp only [Expr.call.injEq, Expr.path.injEq, endsWith_iff, ne_eq]
      constructor
      · intro h
        obtain ⟨_, h1, h2⟩ := bind_eq_ok h
        split at h1
        · cases h1
        · rename_i hn
          split at h2
          · rename_i ha
            refine ⟨segs, tr, ⟨rfl, List.isEmpty_iff.1 ha, rfl⟩, ?_⟩
            by_cases h3 : joinStr (str% "::") segs = str% "T::DbWeight::get"
            · exact .inl h3
            · refine .inr ?_
              by_cases h4 : str% "RocksDbWeight::get" <:+ joinStr (str% "::") segs
              · obtain ⟨p, hp⟩ := h4; exact ⟨p, .inl hp.symm⟩
              · by_cases h5 : str% "ParityDbWeight::get" <:+ joinStr (str% "::") segs
                · obtain ⟨p, hp⟩ := h5; exact ⟨p, .inr hp.symm⟩
                · exact absurd ⟨h3, h4, h5⟩ hn
          · cases h2
      · rintro ⟨segs', tr', ⟨rfl, rfl, rfl⟩, h⟩
        rw [if_neg]
        · rfl
        · rintro ⟨h3, h4, h5⟩
          rcases h with h | ⟨p, h | h⟩
          · exact h3 h
          · exact h4 ⟨p, h.symm⟩
          · exact h5 ⟨p, h.symm⟩
    | _ =>
      constructor
      · intro h; cases h
      · rintro ⟨_, _, h, _⟩; cases h
  | _ =>
    constructor
    · intro h; cases h
    · rintro ⟨_, _, h, _⟩; cases h

theorem validateDbCall_panic (e : Expr) : validateDbCall e ≠ .panic := by
  rcases validateDbCall_clean e with ⟨_, h⟩ | ⟨_, h⟩ <;> rw [h] <;> exact fun h => nomatch h

theorem calls_iff {name : Str} (full : Str) (hf : full = str% "::" ++ name) (f : Expr) :
    Calls name f ↔ ∃ n, functionName f = .ok n ∧ endsWith n full = true := by
  subst hf
  unfold Calls
  cases f with
  | path segs =>
    simp only [functionName, pathToString, Option.getD_some, Res.ok.injEq, endsWith_iff, Expr.path.injEq]
    constructor
    · rintro ⟨s, pre, rfl, h⟩
      exact ⟨_, rfl, pre, by rw [h, List.append_assoc]⟩
    · rintro ⟨n, rfl, pre, h⟩
      exact ⟨segs, pre, rfl, by rw [List.append_assoc]; exact h.symm⟩
  | _ => simp [functionName]

theorem functionName_panic (e : Expr) : functionName e ≠ .panic := by
  rcases functionName_clean e with ⟨_, h⟩ | ⟨_, h⟩ <;> rw [h] <;> exact fun h => nomatch h

theorem calls_not {f g n : Str} (h : endsWith n f = true) (h1 : ¬ f <:+ g) (h2 : ¬ g <:+ f) : ¬ endsWith n g = true := by
  intro hc
  rcases endsWith_two h hc with h' | h'
  · exact h1 h'
  · exact h2 h'

theorem noArguments_iff (args : List Expr) (tr : Bool) : emptyOrTrailing args tr = true ↔ NoArguments args tr := by
  simp [emptyOrTrailing, NoArguments]

theorem parseScalar_reads {e : Expr} {t : SimpleTerm} (h : parseScalar e = .ok t) : Reads1 e t := by
  fun_induction parseScalar e generalizing t with
  | case1 e ih => exact .cast (ih h)
  | case2 e ih => exact .paren (ih h)
  | case3 l =>
    obtain ⟨n, h1, h2⟩ := bind_eq_ok h
    cases h2
    exact .lit ((litToValue_iff l n).1 h1)
  | case4 segs => cases h; exact .name segs
  | case5 r args tr ha ih => exact .refTime (ih h) ((noArguments_iff _ _).1 ha)
  | case7 r args tr _ ih =>
    obtain ⟨_, h1, h2⟩ := bind_eq_ok h
    rcases args with _ | ⟨a, _ | ⟨c, l⟩⟩
    · cases h2
    · obtain ⟨s, h3, h4⟩ := bind_eq_ok h2
      cases h4
      exact .reads ((validateDbCall_iff r).1 h1) (ih h3)
    · cases h2
  | case8 r args tr _ _ ih =>
    obtain ⟨_, h1, h2⟩ := bind_eq_ok h
    rcases args with _ | ⟨a, _ | ⟨c, l⟩⟩
    · cases h2
    · obtain ⟨s, h3, h4⟩ := bind_eq_ok h2
      cases h4
      exact .writes ((validateDbCall_iff r).1 h1) (ih h3)
    · cases h2
  | case9 r args tr _ _ _ ih2 ih =>
    obtain ⟨_, h1, h2⟩ := bind_eq_ok h
    rcases args with _ | ⟨a, _ | ⟨c, l⟩⟩
    · cases h2
    · obtain ⟨s, h3, h4⟩ := bind_eq_ok h2
      cases h4
      exact .add (ih2 h1) (ih h3)
    · cases h2
  | case10 r args tr _ _ _ _ ih2 ih =>
    obtain ⟨_, h1, h2⟩ := bind_eq_ok h
    rcases args with _ | ⟨a, _ | ⟨c, l⟩⟩
    · cases h2
    · obtain ⟨s, h3, h4⟩ := bind_eq_ok h2
      cases h4
      exact .mul (ih2 h1) (ih h3)
    · cases h2
  | case11 r args tr _ _ _ _ _ ih => exact .into (ih h)
  | case13 f args tr ih =>
    obtain ⟨n, h1, h2⟩ := bind_eq_ok h
    split at h2
    · rename_i hn
      rcases args with _ | ⟨a, _ | ⟨c, l⟩⟩
      · cases h2
      · exact .fromRefTime ((calls_iff _ rfl f).2 ⟨n, h1, hn⟩) (ih h2)
      · cases h2
    · split at h2
      · rename_i hn
        split at h2
        · cases h2
          rename_i ha
          exact .zero ((calls_iff _ rfl f).2 ⟨n, h1, hn⟩) ((noArguments_iff _ _).1 ha)
        · cases h2
      · cases h2
  | _ => cases h

theorem reads_parseScalar {e : Expr} {t : SimpleTerm} (h : Reads1 e t) : parseScalar e = .ok t := by
  induction h with
  | lit h => rw [parseScalar, (litToValue_iff _ _).2 h]; rfl
  | name segs => rfl
  | cast _ ih => exact ih
  | paren _ ih => exact ih
  | refTime _ ha ih => rw [parseScalar.eq_def]; dsimp only; rw [if_pos rfl, if_pos ((noArguments_iff _ _).2 ha), ih]
  | into _ ih => rw [ps_into, ih]
  | reads hd _ ih => rw [ps_reads, (validateDbCall_iff _).2 hd, Res.bind_ok, ih]; rfl
  | writes hd _ ih => rw [ps_writes, (validateDbCall_iff _).2 hd, Res.bind_ok, ih]; rfl
  | add _ _ ih1 ih2 => rw [ps_add, ih1, Res.bind_ok, ih2]; rfl
  | mul _ _ ih1 ih2 => rw [ps_mul, ih1, Res.bind_ok, ih2]; rfl
  | fromRefTime hf _ ih =>
    obtain ⟨n, h1, h2⟩ := (calls_iff (str% "::from_ref_time") rfl _).1 hf
    rw [parseScalar, h1, Res.bind_ok, if_pos h2]
    exact ih
  | zero hf ha =>
    obtain ⟨n, h1, h2⟩ := (calls_iff (str% "::zero") rfl _).1 hf
    rw [parseScalar.eq_def]
    dsimp only
    rw [h1, Res.bind_ok, if_neg (calls_not h2 (by decide) (by decide)), if_pos h2, if_pos ((noArguments_iff _ _).2 ha)]

/-- C108: an expression is understood as a number exactly if the specification says so. -/
theorem C108_number (e : Expr) (t : SimpleTerm) : parseScalar e = .ok t ↔ Reads1 e t := ⟨parseScalar_reads, reads_parseScalar⟩

theorem parseScalar_fatal {e : Expr} (h : parseScalar e = .panic) : Fatal1 e := by
  fun_induction parseScalar e with
  | case1 e ih => exact .cast (ih h)
  | case2 e ih => exact .paren (ih h)
  | case3 l =>
    rcases bind_eq_panic.1 h with h1 | ⟨n, -, h2⟩
    · exact .lit ((litToValue_panic l).1 h1)
    · cases h2
  | case4 segs => cases h
  | case5 r args tr ha ih => exact .refTime (ih h) ((noArguments_iff _ _).1 ha)
  | case7 r args tr _ ih =>
    rcases bind_eq_panic.1 h with h1 | ⟨_, h1, h2⟩
    · exact absurd h1 (validateDbCall_panic r)
    rcases args with _ | ⟨a, _ | ⟨c, l⟩⟩
    · cases h2
    · rcases bind_eq_panic.1 h2 with h3 | ⟨_, -, h3⟩
      · exact .access (.inl rfl) ((validateDbCall_iff r).1 h1) (ih h3)
      · cases h3
    · cases h2
  | case8 r args tr _ _ ih =>
    rcases bind_eq_panic.1 h with h1 | ⟨_, h1, h2⟩
    · exact absurd h1 (validateDbCall_panic r)
    rcases args with _ | ⟨a, _ | ⟨c, l⟩⟩
    · cases h2
    · rcases bind_eq_panic.1 h2 with h3 | ⟨_, -, h3⟩
      · exact .access (.inr rfl) ((validateDbCall_iff r).1 h1) (ih h3)
      · cases h3
    · cases h2
  | case9 r args tr _ _ _ ih2 ih =>
    rcases bind_eq_panic.1 h with h1 | ⟨_, h1, h2⟩
    · exact .left (.inl rfl) (ih2 h1)
    rcases args with _ | ⟨a, _ | ⟨c, l⟩⟩
    · cases h2
    · rcases bind_eq_panic.1 h2 with h3 | ⟨_, -, h3⟩
      · exact .right (.inl rfl) (parseScalar_reads h1) (ih h3)
      · cases h3
    · cases h2
  | case10 r args tr _ _ _ _ ih2 ih =>
    rcases bind_eq_panic.1 h with h1 | ⟨_, h1, h2⟩
    · exact .left (.inr rfl) (ih2 h1)
    rcases args with _ | ⟨a, _ | ⟨c, l⟩⟩
    · cases h2
    · rcases bind_eq_panic.1 h2 with h3 | ⟨_, -, h3⟩
      · exact .right (.inr rfl) (parseScalar_reads h1) (ih h3)
      · cases h3
    · cases h2
  | case11 r args tr _ _ _ _ _ ih => exact .into (ih h)
  | case13 f args tr ih =>
    rcases bind_eq_panic.1 h with h1 | ⟨n, h1, h2⟩
    · exact absurd h1 (functionName_panic f)
    split at h2
    · rename_i hn
      rcases args with _ | ⟨a, _ | ⟨c, l⟩⟩
      · cases h2
      · exact .fromRefTime ((calls_iff _ rfl f).2 ⟨n, h1, hn⟩) (ih h2)
      · cases h2
    · split at h2
      · split at h2
        · cases h2
        · cases h2
      · cases h2
  | _ => cases h

theorem ps_add_panic {r : Expr} {args : List Expr} {tr : Bool} (h : parseScalar r = .panic) :
    parseScalar (.methodCall r (str% "saturating_add") args tr) = .panic := by
  rw [parseScalar.eq_def]
  dsimp only
  rw [if_neg (by decide), if_neg (by decide), if_neg (by decide), if_pos rfl, h, Res.bind_panic]

theorem ps_mul_panic {r : Expr} {args : List Expr} {tr : Bool} (h : parseScalar r = .panic) :
    parseScalar (.methodCall r (str% "saturating_mul") args tr) = .panic := by
  rw [parseScalar.eq_def]
  dsimp only
  rw [if_neg (by decide), if_neg (by decide), if_neg (by decide), if_neg (by decide), if_pos rfl, h, Res.bind_panic]

theorem fatal_parseScalar {e : Expr} (h : Fatal1 e) : parseScalar e = .panic := by
  induction h with
  | lit h => rw [parseScalar, (litToValue_panic _).2 h]; rfl
  | cast _ ih => exact ih
  | paren _ ih => exact ih
  | refTime _ ha ih => rw [parseScalar.eq_def]; dsimp only; rw [if_pos rfl, if_pos ((noArguments_iff _ _).2 ha), ih]
  | into _ ih => rw [ps_into, ih]
  | access hm hd _ ih =>
    rcases hm with rfl | rfl
    · rw [ps_reads, (validateDbCall_iff _).2 hd, Res.bind_ok, ih]; rfl
    · rw [ps_writes, (validateDbCall_iff _).2 hd, Res.bind_ok, ih]; rfl
  | left hm _ ih =>
    rcases hm with rfl | rfl
    · exact ps_add_panic ih
    · exact ps_mul_panic ih
  | right hm h1 _ ih =>
    rcases hm with rfl | rfl
    · rw [ps_add, reads_parseScalar h1, Res.bind_ok, ih]; rfl
    · rw [ps_mul, reads_parseScalar h1, Res.bind_ok, ih]; rfl
  | fromRefTime hf _ ih =>
    obtain ⟨n, h1, h2⟩ := (calls_iff (str% "::from_ref_time") rfl _).1 hf
    rw [parseScalar, h1, Res.bind_ok, if_pos h2]
    exact ih

/-- C108: reading an expression as a number crashes exactly if it is fatal; it is refused exactly if it is neither understood nor fatal. -/
theorem C108_number_fatal (e : Expr) : parseScalar e = .panic ↔ Fatal1 e := ⟨parseScalar_fatal, fatal_parseScalar⟩

theorem diverge_bind {α β : Type} {x : Res α} {f : α → Res β} (hx : x ≠ .diverge) (hf : ∀ a, f a ≠ .diverge) : (x >>= f) ≠ .diverge := by
  cases x with
  | ok a => exact hf a
  | err m => exact fun h => nomatch h
  | panic => exact fun h => nomatch h
  | diverge => exact absurd rfl hx

theorem clean_diverge {α : Type} {x : Res α} (h : Clean x) : x ≠ .diverge := by
  rcases h with ⟨_, rfl⟩ | ⟨_, rfl⟩ <;> exact fun h => nomatch h

theorem litToValue_diverge (l : Lit) : litToValue l ≠ .diverge := by
  cases l with
  | other => exact fun h => nomatch h
  | int s => rw [litToValue]; cases parseUInt u128Size s <;> exact fun h => nomatch h

theorem parseScalar_diverge (e : Expr) : parseScalar e ≠ .diverge := by
  fun_induction parseScalar e with
  | case1 e ih => exact ih
  | case2 e ih => exact ih
  | case3 l => exact diverge_bind (litToValue_diverge l) fun _ h => nomatch h
  | case5 r args tr ha ih => exact ih
  | case7 r args tr _ ih =>
    refine diverge_bind (clean_diverge (validateDbCall_clean r)) fun _ => ?_
    rcases args with _ | ⟨a, _ | ⟨c, l⟩⟩
    · exact fun h => nomatch h
    · exact diverge_bind ih fun _ h => nomatch h
    · exact fun h => nomatch h
  | case8 r args tr _ _ ih =>
    refine diverge_bind (clean_diverge (validateDbCall_clean r)) fun _ => ?_
    rcases args with _ | ⟨a, _ | ⟨c, l⟩⟩
    · exact fun h => nomatch h
    · exact diverge_bind ih fun _ h => nomatch h
    · exact fun h => nomatch h
  | case9 r args tr _ _ _ ih2 ih =>
    refine diverge_bind ih2 fun _ => ?_
    rcases args with _ | ⟨a, _ | ⟨c, l⟩⟩
    · exact fun h => nomatch h
    · exact diverge_bind ih fun _ h => nomatch h
    · exact fun h => nomatch h
  | case10 r args tr _ _ _ _ ih2 ih =>
    refine diverge_bind ih2 fun _ => ?_
    rcases args with _ | ⟨a, _ | ⟨c, l⟩⟩
    · exact fun h => nomatch h
    · exact diverge_bind ih fun _ h => nomatch h
    · exact fun h => nomatch h
  | case11 r args tr _ _ _ _ _ ih => exact ih
  | case13 f args tr ih =>
    refine diverge_bind (clean_diverge (functionName_clean f)) fun _ => ?_
    split
    · rcases args with _ | ⟨a, _ | ⟨c, l⟩⟩
      · exact fun h => nomatch h
      · exact ih
      · exact fun h => nomatch h
    · split
      · split <;> exact fun h => nomatch h
      · exact fun h => nomatch h
  | _ => exact fun h => nomatch h

theorem parseRw_iff (a : Expr) (t : ChromaticTerm) : parseRw a = .ok t ↔ CountOf a t := by
  unfold CountOf parseRw
  split
  · rename_i l
    constructor
    · intro h
      obtain ⟨n, h1, h2⟩ := bind_eq_ok h
      cases h2
      exact .inl ⟨l, n, rfl, (litToValue_iff l n).1 h1, rfl⟩
    · rintro (⟨l', n, h, hn, rfl⟩ | ⟨h, -⟩)
      · cases h
        rw [(litToValue_iff _ n).2 hn]; rfl
      · exact absurd rfl (h l)
  · rename_i hl
    constructor
    · intro h
      obtain ⟨s, h1, h2⟩ := bind_eq_ok h
      cases h2
      exact .inr ⟨hl, s, parseScalar_reads h1, rfl⟩
    · rintro (⟨l', n, rfl, hn, rfl⟩ | ⟨-, s, h1, rfl⟩)
      · exact absurd rfl (hl l')
      · rw [reads_parseScalar h1]; rfl

theorem parseRw_panic (a : Expr) : parseRw a = .panic ↔ Fatal1 a := by
  rw [← C108_number_fatal]
  unfold parseRw
  split
  · rename_i l
    rw [parseScalar, bind_eq_panic, bind_eq_panic]
    simp
  · rw [bind_eq_panic]; simp

theorem parseRw_diverge (a : Expr) : parseRw a ≠ .diverge := by
  unfold parseRw
  split
  · exact diverge_bind (litToValue_diverge _) fun _ h => nomatch h
  · exact diverge_bind (parseScalar_diverge _) fun _ h => nomatch h

theorem parseCall_reads {f : Expr} {args : List Expr} {tr : Bool} {t : ChromaticTerm} (h : parseCall f args tr = .ok t) : Reads2 (.call f args tr) t := by
  unfold parseCall at h
  obtain ⟨n, h1, h2⟩ := bind_eq_ok h
  split at h2
  · rename_i hn
    rcases args with _ | ⟨a, _ | ⟨c, l⟩⟩
    · cases h2
    · obtain ⟨s, h3, h4⟩ := bind_eq_ok h2
      cases h4
      exact .fromRefTime ((calls_iff _ rfl f).2 ⟨n, h1, hn⟩) (parseScalar_reads h3)
    · cases h2
  · split at h2
    · rename_i hn
      rcases args with _ | ⟨a, _ | ⟨c, l⟩⟩
      · cases h2
      · obtain ⟨s, h3, h4⟩ := bind_eq_ok h2
        cases h4
        exact .fromProofSize ((calls_iff _ rfl f).2 ⟨n, h1, hn⟩) (parseScalar_reads h3)
      · cases h2
    · split at h2
      · rename_i hn
        rcases args with _ | ⟨a, _ | ⟨c, _ | ⟨d, l⟩⟩⟩
        · cases h2
        · cases h2
        · obtain ⟨s, h3, h4⟩ := bind_eq_ok h2
          obtain ⟨s', h5, h6⟩ := bind_eq_ok h4
          cases h6
          exact .fromParts ((calls_iff _ rfl f).2 ⟨n, h1, hn⟩) (parseScalar_reads h3) (parseScalar_reads h5)
        · cases h2
      · split at h2
        · rename_i hn
          split at h2
          · rename_i ha
            cases h2
            exact .zero ((calls_iff _ rfl f).2 ⟨n, h1, hn⟩) ((noArguments_iff _ _).1 ha)
          · cases h2
        · cases h2

theorem parseExpression_reads {e : Expr} {t : ChromaticTerm} (h : parseExpression e = .ok t) : Reads2 e t := by
  fun_induction parseExpression e generalizing t with
  | case1 e ih => exact .paren (ih h)
  | case2 e ih => exact .cast (ih h)
  | case3 segs => cases h; exact .name segs
  | case4 f args tr => exact parseCall_reads h
  | case5 r args tr =>
    obtain ⟨_, h1, h2⟩ := bind_eq_ok h
    rcases args with _ | ⟨a, _ | ⟨c, l⟩⟩
    · cases h2
    · obtain ⟨s, h3, h4⟩ := bind_eq_ok h2
      cases h4
      exact .reads ((validateDbCall_iff r).1 h1) ((parseRw_iff _ _).1 h3)
    · cases h2
  | case6 r args tr =>
    obtain ⟨_, h1, h2⟩ := bind_eq_ok h
    rcases args with _ | ⟨a, _ | ⟨c, l⟩⟩
    · cases h2
    · obtain ⟨s, h3, h4⟩ := bind_eq_ok h2
      cases h4
      exact .writes ((validateDbCall_iff r).1 h1) ((parseRw_iff _ _).1 h3)
    · cases h2
  | case7 r args tr _ _ ih2 ih =>
    obtain ⟨_, h1, h2⟩ := bind_eq_ok h
    rcases args with _ | ⟨a, _ | ⟨c, l⟩⟩
    · cases h2
    · obtain ⟨s, h3, h4⟩ := bind_eq_ok h2
      cases h4
      exact .add (ih2 h1) (ih h3)
    · cases h2
  | case8 r args tr _ _ _ ih2 ih =>
    obtain ⟨_, h1, h2⟩ := bind_eq_ok h
    rcases args with _ | ⟨a, _ | ⟨c, l⟩⟩
    · cases h2
    · obtain ⟨s, h3, h4⟩ := bind_eq_ok h2
      cases h4
      exact .mul (ih2 h1) (ih h3)
    · cases h2
  | case9 r args tr _ _ _ _ ih => exact .into (ih h)
  | _ => cases h

theorem reads_parseExpression {e : Expr} {t : ChromaticTerm} (h : Reads2 e t) : parseExpression e = .ok t := by
  induction h with
  | name segs => rfl
  | cast _ ih => exact ih
  | paren _ ih => exact ih
  | into _ ih => rw [pe_into, ih]
  | reads hd h => rw [pe_reads, (validateDbCall_iff _).2 hd, Res.bind_ok, (parseRw_iff _ _).2 h]; rfl
  | writes hd h => rw [pe_writes, (validateDbCall_iff _).2 hd, Res.bind_ok, (parseRw_iff _ _).2 h]; rfl
  | add _ _ ih1 ih2 => rw [pe_add, ih1, Res.bind_ok, ih2]; rfl
  | mul _ _ ih1 ih2 => rw [pe_mul, ih1, Res.bind_ok, ih2]; rfl
  | fromRefTime hf h =>
    obtain ⟨n, h1, h2⟩ := (calls_iff (str% "::from_ref_time") rfl _).1 hf
    rw [parseExpression, parseCall, h1, Res.bind_ok, if_pos h2]
    rw [reads_parseScalar h]; rfl
  | fromProofSize hf h =>
    obtain ⟨n, h1, h2⟩ := (calls_iff (str% "::from_proof_size") rfl _).1 hf
    rw [parseExpression, parseCall, h1, Res.bind_ok, if_neg (calls_not h2 (by decide) (by decide)), if_pos h2]
    rw [reads_parseScalar h]; rfl
  | fromParts hf h h' =>
    obtain ⟨n, h1, h2⟩ := (calls_iff (str% "::from_parts") rfl _).1 hf
    rw [parseExpression, parseCall, h1, Res.bind_ok, if_neg (calls_not h2 (by decide) (by decide)),
      if_neg (calls_not h2 (by decide) (by decide)), if_pos h2]
    rw [reads_parseScalar h, reads_parseScalar h']; rfl
  | zero hf ha =>
    obtain ⟨n, h1, h2⟩ := (calls_iff (str% "::zero") rfl _).1 hf
    rw [parseExpression]
    unfold parseCall
    rw [h1, Res.bind_ok, if_neg (calls_not h2 (by decide) (by decide)),
      if_neg (calls_not h2 (by decide) (by decide)), if_neg (calls_not h2 (by decide) (by decide)), if_pos h2, if_pos ((noArguments_iff _ _).2 ha)]

/-- C108: an expression is understood as a weight exactly if the specification says so. -/
theorem C108_weight (e : Expr) (t : ChromaticTerm) : parseExpression e = .ok t ↔ Reads2 e t := ⟨parseExpression_reads, reads_parseExpression⟩

theorem parseCall_fatal {f : Expr} {args : List Expr} {tr : Bool} (h : parseCall f args tr = .panic) : Fatal2 (.call f args tr) := by
  unfold parseCall at h
  rcases bind_eq_panic.1 h with h1 | ⟨n, h1, h2⟩
  · exact absurd h1 (functionName_panic f)
  split at h2
  · rename_i hn
    rcases args with _ | ⟨a, _ | ⟨c, l⟩⟩
    · cases h2
    · rcases bind_eq_panic.1 h2 with h3 | ⟨_, -, h3⟩
      · exact .one (.inl ((calls_iff _ rfl f).2 ⟨n, h1, hn⟩)) (parseScalar_fatal h3)
      · cases h3
    · cases h2
  · split at h2
    · rename_i hn
      rcases args with _ | ⟨a, _ | ⟨c, l⟩⟩
      · cases h2
      · rcases bind_eq_panic.1 h2 with h3 | ⟨_, -, h3⟩
        · exact .one (.inr ((calls_iff _ rfl f).2 ⟨n, h1, hn⟩)) (parseScalar_fatal h3)
        · cases h3
      · cases h2
    · split at h2
      · rename_i hn
        rcases args with _ | ⟨a, _ | ⟨c, _ | ⟨d, l⟩⟩⟩
        · cases h2
        · cases h2
        · rcases bind_eq_panic.1 h2 with h3 | ⟨_, h3, h4⟩
          · exact .first ((calls_iff _ rfl f).2 ⟨n, h1, hn⟩) (parseScalar_fatal h3)
          · rcases bind_eq_panic.1 h4 with h5 | ⟨_, -, h5⟩
            · exact .second ((calls_iff _ rfl f).2 ⟨n, h1, hn⟩) (parseScalar_reads h3) (parseScalar_fatal h5)
            · cases h5
        · cases h2
      · split at h2
        · split at h2 <;> cases h2
        · cases h2

theorem parseExpression_fatal {e : Expr} (h : parseExpression e = .panic) : Fatal2 e := by
  fun_induction parseExpression e with
  | case1 e ih => exact .paren (ih h)
  | case2 e ih => exact .cast (ih h)
  | case3 segs => cases h
  | case4 f args tr => exact parseCall_fatal h
  | case5 r args tr =>
    rcases bind_eq_panic.1 h with h1 | ⟨_, h1, h2⟩
    · exact absurd h1 (validateDbCall_panic r)
    rcases args with _ | ⟨a, _ | ⟨c, l⟩⟩
    · cases h2
    · rcases bind_eq_panic.1 h2 with h3 | ⟨_, -, h3⟩
      · exact .access (.inl rfl) ((validateDbCall_iff r).1 h1) ((parseRw_panic _).1 h3)
      · cases h3
    · cases h2
  | case6 r args tr =>
    rcases bind_eq_panic.1 h with h1 | ⟨_, h1, h2⟩
    · exact absurd h1 (validateDbCall_panic r)
    rcases args with _ | ⟨a, _ | ⟨c, l⟩⟩
    · cases h2
    · rcases bind_eq_panic.1 h2 with h3 | ⟨_, -, h3⟩
      · exact .access (.inr rfl) ((validateDbCall_iff r).1 h1) ((parseRw_panic _).1 h3)
      · cases h3
    · cases h2
  | case7 r args tr _ _ ih2 ih =>
    rcases bind_eq_panic.1 h with h1 | ⟨_, h1, h2⟩
    · exact .left (.inl rfl) (ih2 h1)
    rcases args with _ | ⟨a, _ | ⟨c, l⟩⟩
    · cases h2
    · rcases bind_eq_panic.1 h2 with h3 | ⟨_, -, h3⟩
      · exact .right (.inl rfl) (parseExpression_reads h1) (ih h3)
      · cases h3
    · cases h2
  | case8 r args tr _ _ _ ih2 ih =>
    rcases bind_eq_panic.1 h with h1 | ⟨_, h1, h2⟩
    · exact .left (.inr rfl) (ih2 h1)
    rcases args with _ | ⟨a, _ | ⟨c, l⟩⟩
    · cases h2
    · rcases bind_eq_panic.1 h2 with h3 | ⟨_, -, h3⟩
      · exact .right (.inr rfl) (parseExpression_reads h1) (ih h3)
      · cases h3
    · cases h2
  | case9 r args tr _ _ _ _ ih => exact .into (ih h)
  | _ => cases h

theorem pe_left_panic {r : Expr} {m : Str} {args : List Expr} {tr : Bool} (hm : m = str% "saturating_add" ∨ m = str% "saturating_mul")
    (h : parseExpression r = .panic) : parseExpression (.methodCall r m args tr) = .panic := by
  rw [parseExpression.eq_def]
  dsimp only
  rcases hm with rfl | rfl
  · rw [if_neg (by decide), if_neg (by decide), if_pos rfl, h, Res.bind_panic]
  · rw [if_neg (by decide), if_neg (by decide), if_neg (by decide), if_pos rfl, h, Res.bind_panic]

theorem fatal_parseExpression {e : Expr} (h : Fatal2 e) : parseExpression e = .panic := by
  induction h with
  | cast _ ih => exact ih
  | paren _ ih => exact ih
  | into _ ih => rw [pe_into, ih]
  | access hm hd h =>
    rcases hm with rfl | rfl
    · rw [pe_reads, (validateDbCall_iff _).2 hd, Res.bind_ok, (parseRw_panic _).2 h]; rfl
    · rw [pe_writes, (validateDbCall_iff _).2 hd, Res.bind_ok, (parseRw_panic _).2 h]; rfl
  | left hm _ ih => exact pe_left_panic hm ih
  | right hm h1 _ ih =>
    rcases hm with rfl | rfl
    · rw [pe_add, reads_parseExpression h1, Res.bind_ok, ih]; rfl
    · rw [pe_mul, reads_parseExpression h1, Res.bind_ok, ih]; rfl
  | one hf h =>
    rcases hf with hf | hf
    · obtain ⟨n, h1, h2⟩ := (calls_iff (str% "::from_ref_time") rfl _).1 hf
      rw [parseExpression, parseCall, h1, Res.bind_ok, if_pos h2]
      rw [fatal_parseScalar h]; rfl
    · obtain ⟨n, h1, h2⟩ := (calls_iff (str% "::from_proof_size") rfl _).1 hf
      rw [parseExpression, parseCall, h1, Res.bind_ok, if_neg (calls_not h2 (by decide) (by decide)), if_pos h2]
      rw [fatal_parseScalar h]; rfl
  | first hf h =>
    obtain ⟨n, h1, h2⟩ := (calls_iff (str% "::from_parts") rfl _).1 hf
    rw [parseExpression, parseCall, h1, Res.bind_ok, if_neg (calls_not h2 (by decide) (by decide)),
      if_neg (calls_not h2 (by decide) (by decide)), if_pos h2]
    rw [fatal_parseScalar h]; rfl
  | second hf h h' =>
    obtain ⟨n, h1, h2⟩ := (calls_iff (str% "::from_parts") rfl _).1 hf
    rw [parseExpression, parseCall, h1, Res.bind_ok, if_neg (calls_not h2 (by decide) (by decide)),
      if_neg (calls_not h2 (by decide) (by decide)), if_pos h2]
    rw [reads_parseScalar h, fatal_parseScalar h']; rfl

/-- C108: reading an expression as a weight crashes exactly if it is fatal. -/
theorem C108_weight_fatal (e : Expr) : parseExpression e = .panic ↔ Fatal2 e := ⟨parseExpression_fatal, fatal_parseExpression⟩

theorem parseCall_diverge (f : Expr) (args : List Expr) (tr : Bool) : parseCall f args tr ≠ .diverge := by
  unfold parseCall
  refine diverge_bind (clean_diverge (functionName_clean f)) fun _ => ?_
  split
  · split
    · exact diverge_bind (parseScalar_diverge _) fun _ h => nomatch h
    · exact fun h => nomatch h
  · split
    · split
      · exact diverge_bind (parseScalar_diverge _) fun _ h => nomatch h
      · exact fun h => nomatch h
    · split
      · split
        · exact diverge_bind (parseScalar_diverge _) fun _ => diverge_bind (parseScalar_diverge _) fun _ h => nomatch h
        · exact fun h => nomatch h
      · split
        · split <;> exact fun h => nomatch h
        · exact fun h => nomatch h

theorem parseExpression_diverge (e : Expr) : parseExpression e ≠ .diverge := by
  fun_induction parseExpression e with
  | case1 e ih => exact ih
  | case2 e ih => exact ih
  | case4 f args tr => exact parseCall_diverge f args tr
  | case5 r args tr =>
    refine diverge_bind (clean_diverge (validateDbCall_clean r)) fun _ => ?_
    rcases args with _ | ⟨a, _ | ⟨c, l⟩⟩
    · exact fun h => nomatch h
    · exact diverge_bind (parseRw_diverge a) fun _ h => nomatch h
    · exact fun h => nomatch h
  | case6 r args tr =>
    refine diverge_bind (clean_diverge (validateDbCall_clean r)) fun _ => ?_
    rcases args with _ | ⟨a, _ | ⟨c, l⟩⟩
    · exact fun h => nomatch h
    · exact diverge_bind (parseRw_diverge a) fun _ h => nomatch h
    · exact fun h => nomatch h
  | case7 r args tr _ _ ih2 ih =>
    refine diverge_bind ih2 fun _ => ?_
    rcases args with _ | ⟨a, _ | ⟨c, l⟩⟩
    · exact fun h => nomatch h
    · exact diverge_bind ih fun _ h => nomatch h
    · exact fun h => nomatch h
  | case8 r args tr _ _ _ ih2 ih =>
    refine diverge_bind ih2 fun _ => ?_
    rcases args with _ | ⟨a, _ | ⟨c, l⟩⟩
    · exact fun h => nomatch h
    · exact diverge_bind ih fun _ h => nomatch h
    · exact fun h => nomatch h
  | case9 r args tr _ _ _ _ ih => exact ih
  | _ => exact fun h => nomatch h

theorem reads1_not_fatal {e : Expr} {t : SimpleTerm} (h : Reads1 e t) : ¬ Fatal1 e := by
  intro hf
  have := fatal_parseScalar hf
  rw [reads_parseScalar h] at this
  cases this

theorem calls_clash {f g : Str} {e : Expr} (h : Calls f e) (h' : Calls g e) (h1 : ¬ (str% "::" ++ f) <:+ (str% "::" ++ g))
    (h2 : ¬ (str% "::" ++ g) <:+ (str% "::" ++ f)) : False := by
  obtain ⟨n, h3, h4⟩ := (calls_iff _ rfl e).1 h
  obtain ⟨n', h5, h6⟩ := (calls_iff _ rfl e).1 h'
  rw [h3] at h5
  cases h5
  exact calls_not h4 h1 h2 h6

/-- What is understood as a weight is not fatal when read as a number. -/
theorem reads2_not_fatal {e : Expr} {t : ChromaticTerm} (h : Reads2 e t) : ¬ Fatal1 e := by
  induction h with
  | name segs => exact fun h => nomatch h
  | cast _ ih => intro h; cases h with | cast h => exact ih h
  | paren _ ih => intro h; cases h with | paren h => exact ih h
  | into _ ih =>
    intro h
    cases h with
    | into h => exact ih h
    | access hm => rcases hm with hm | hm <;> exact absurd hm (by decide)
    | left hm => rcases hm with hm | hm <;> exact absurd hm (by decide)
    | right hm => rcases hm with hm | hm <;> exact absurd hm (by decide)
  | reads hd hc =>
    intro h
    cases h with
    | access _ _ h =>
      rcases hc with ⟨l, n, rfl, hn, -⟩ | ⟨-, s, hs, -⟩
      · cases h with | lit h => exact h n hn
      · exact reads1_not_fatal hs h
    | left hm => rcases hm with hm | hm <;> exact absurd hm (by decide)
    | right hm => rcases hm with hm | hm <;> exact absurd hm (by decide)
  | writes hd hc =>
    intro h
    cases h with
    | access _ _ h =>
      rcases hc with ⟨l, n, rfl, hn, -⟩ | ⟨-, s, hs, -⟩
      · cases h with | lit h => exact h n hn
      · exact reads1_not_fatal hs h
    | left hm => rcases hm with hm | hm <;> exact absurd hm (by decide)
    | right hm => rcases hm with hm | hm <;> exact absurd hm (by decide)
  | add _ _ ih1 ih2 =>
    intro h
    cases h with
    | access hm => rcases hm with hm | hm <;> exact absurd hm (by decide)
    | left _ h => exact ih1 h
    | right _ _ h => exact ih2 h
  | mul _ _ ih1 ih2 =>
    intro h
    cases h with
    | access hm => rcases hm with hm | hm <;> exact absurd hm (by decide)
    | left _ h => exact ih1 h
    | right _ _ h => exact ih2 h
  | fromRefTime hf hs => intro h; cases h with | fromRefTime _ h => exact reads1_not_fatal hs h
  | fromProofSize hf hs => intro h; cases h with | fromRefTime hf' _ => exact calls_clash hf hf' (by decide) (by decide)
  | fromParts hf hs => intro h; cases h
  | zero hf => intro h; cases h with | fromRefTime hf' _ => exact calls_clash hf hf' (by decide) (by decide)

/-- C108: exactly which bodies of functions are understood, and as which equation. -/
theorem C108_body (e : Expr) (t : ChromaticTerm) : parseBody e = .ok t ↔ ReadsBody e t := by
  unfold parseBody ReadsBody
  simp only [← C108_weight, ← C108_weight_fatal, ← C108_number]
  cases h : parseExpression e with
  | ok s => simp
  | err m =>
    simp only [reduceCtorEq, not_false_eq_true, implies_true, true_and, false_or]
    constructor
    · intro h'
      obtain ⟨s, h1, h2⟩ := bind_eq_ok h'
      cases h2
      exact ⟨s, h1, rfl⟩
    · rintro ⟨s, h1, rfl⟩
      rw [h1]; rfl
  | panic => simp
  | diverge => exact absurd h (parseExpression_diverge e)

/-- C108: exactly which bodies crash the tool. -/
theorem C108_body_fatal (e : Expr) : parseBody e = .panic ↔ FatalBody e := by
  unfold parseBody FatalBody
  cases h : parseExpression e with
  | ok s =>
    simp only [reduceCtorEq, false_iff, not_or]
    refine ⟨reads2_not_fatal (parseExpression_reads h), fun hf => ?_⟩
    rw [fatal_parseExpression hf] at h; cases h
  | err m =>
    simp only
    rw [bind_eq_panic, C108_number_fatal]
    simp only [reduceCtorEq, and_false, exists_false, or_false]
    refine ⟨.inl, fun hf => hf.resolve_right fun hf => ?_⟩
    rw [fatal_parseExpression hf] at h; cases h
  | panic => simp only [true_iff]; exact .inr (parseExpression_fatal h)
  | diverge => exact absurd h (parseExpression_diverge e)

theorem parseBody_diverge (e : Expr) : parseBody e ≠ .diverge := by
  unfold parseBody
  cases h : parseExpression e with
  | err m => exact diverge_bind (parseScalar_diverge e) fun _ h => nomatch h
  | diverge => exact absurd h (parseExpression_diverge e)
  | _ => exact fun h => nomatch h

/-! ### Annotations -/

theorem annotation_drop (cc : CharClass) {pre s name lo hi : Str} (h : AnnotationAt cc pre s name lo hi) :
    AnnotationAt cc [] (s.drop pre.length) name lo hi := by
  induction pre generalizing s with
  | nil => exact h
  | cons c pre ih =>
    cases s with
    | nil => obtain ⟨_, _, _, h0, _⟩ := h; simp at h0
    | cons d s =>
      have : d = c := by obtain ⟨_, _, _, h0, _⟩ := h; simp at h0; exact h0.1
      subst this
      exact ih ((annotationAt_cons cc).1 h)

theorem captures_iff (cc : CharClass) (s name lo hi : Str) : captures cc s = some (name, lo, hi) ↔ FirstAnnotation cc s name lo hi := by
  constructor
  · exact C47_only cc
  · rintro ⟨pre, h1, h2⟩
    cases hc : captures cc s with
    | none => exact absurd h1 ((C47_none cc s).1 hc _ _ _ _)
    | some m =>
      obtain ⟨n, l, u⟩ := m
      obtain ⟨pre', h3, h4⟩ := C47_only cc hc
      have hl : pre.length = pre'.length := Nat.le_antisymm (h2 _ _ _ _ h3) (h4 _ _ _ _ h1)
      have e1 := matchAt_ok cc (annotation_drop cc h1)
      have e2 := matchAt_ok cc (annotation_drop cc h3)
      rw [← hl, e1] at e2
      exact e2.symm

theorem doc_iff (a : Attr) (s : Str) : Doc a s ↔ ∃ path, a = .nameValue path s ∧ pathToString path none = str% "doc" := by
  simp only [Doc, pathToString, Option.getD_none, joinStr_nil]

theorem parseBound_iff {cc : CharClass} {what s : Str} (hs : ∀ c ∈ s, cc.digit c = true ∨ c = '_') (n : Nat) :
    parseBound what s = .ok n ↔ underscored s = some n ∧ n < 2 ^ 32 := by
  constructor
  · intro h
    cases hu : underscored s with
    | none =>
      obtain ⟨m, hm⟩ := parseBound_none (what := what) hu (num_no_plus hs)
      rw [hm] at h; cases h
    | some k =>
      by_cases hk : k < 2 ^ 32
      · rw [parseBound_ok hu hk] at h
        cases h
        exact ⟨rfl, hk⟩
      · obtain ⟨m, hm⟩ := parseBound_big (what := what) hu (by omega)
        rw [hm] at h; cases h
  · rintro ⟨h1, h2⟩
    exact parseBound_ok h1 h2

/-- C108: exactly which attributes are understood, and what they say. -/
theorem C108_attribute (cc : CharClass) (a : Attr) (o : Option (Str × ComponentRange)) : parseComponentAttr cc a = .ok o ↔ Says cc a o := by
  cases a with
  | other =>
    rw [parseComponentAttr]
    cases o with
    | none => simp [Says, Doc]
    | some p => simp [Says, Doc]
  | nameValue path s =>
    rw [parseComponentAttr]
    by_cases hd : pathToString path none = str% "doc"
    · have hd' : ∀ s', Doc (.nameValue path s) s' ↔ s' = s := by
        intro s'
        rw [doc_iff]
        constructor
        · rintro ⟨_, h, _⟩; cases h; rfl
        · rintro rfl; exact ⟨path, rfl, hd⟩
      rw [if_neg (fun hn => hn hd)]
      cases hc : captures cc s with
      | none =>
        have hn := (C47_none cc s).1 hc
        cases o with
        | none =>
          simp only [Says, true_iff, hd']
          rintro s' pre name lo hi rfl
          exact hn _ _ _ _
        | some p =>
          simp only [Says, Res.ok.injEq, reduceCtorEq, false_iff]
          rintro ⟨s', lo, hi, h1, ⟨pre, h2, -⟩, -⟩
          rw [(hd' s').1 h1] at h2
          exact hn _ _ _ _ h2
      | some m =>
        obtain ⟨name, lo, hi⟩ := m
        have hf := (captures_iff cc s name lo hi).1 hc
        obtain ⟨pre, ha, -⟩ := id hf
        obtain ⟨_, _, _, _, _, _, ⟨_, hlo⟩, _, _, hhi⟩ := id ha
        simp only
        constructor
        · intro h
          obtain ⟨l, h1, h⟩ := bind_eq_ok h
          obtain ⟨u, h2, h⟩ := bind_eq_ok h
          rw [parseBound_iff hlo] at h1
          rw [parseBound_iff hhi] at h2
          split at h
          · cases h
          · rename_i hle
            cases h
            exact ⟨s, lo, hi, (hd' s).2 rfl, hf, h1.1, h2.1, Nat.le_of_not_lt hle, h2.2⟩
        · intro h
          cases o with
          | none => exact absurd ha (h s _ _ _ _ ((hd' s).2 rfl))
          | some p =>
            obtain ⟨x, r⟩ := p
            obtain ⟨s', lo', hi', h1, h2, h3, h4, h5, h6⟩ := h
            rw [(hd' s').1 h1, ← captures_iff, hc] at h2
            cases h2
            rw [parseBound_ok h3 (by omega), Res.bind_ok, parseBound_ok h4 h6, Res.bind_ok, if_neg (by omega)]
    · have hd' : ∀ s', ¬ Doc (.nameValue path s) s' := by
        intro s'
        rw [doc_iff]
        rintro ⟨_, h, h'⟩
        cases h
        exact hd h'
      rw [if_pos hd]
      cases o with
      | none => simp only [Says, true_iff]; exact fun s' _ _ _ _ h => absurd h (hd' s')
      | some p =>
        simp only [Says, Res.ok.injEq, reduceCtorEq, false_iff]
        rintro ⟨s', _, _, h, _⟩
        exact hd' s' h

theorem lastAbout_none (x : Str) (l : List (Option (Str × ComponentRange))) : lastAbout x (none :: l) = lastAbout x l := rfl

theorem lastAbout_some (x n : Str) (r : ComponentRange) (l : List (Option (Str × ComponentRange))) :
    lastAbout x (some (n, r) :: l) = (lastAbout x l).or (if n.filter (· ≠ '_') = x then some r else none) := by
  unfold lastAbout
  have e : List.filterMap id (some (n, r) :: l) = (n, r) :: List.filterMap id l := rfl
  rw [e, List.filter_cons]
  generalize List.filter _ (List.filterMap id l) = k
  by_cases h : n.filter (· ≠ '_') = x
  · rw [if_pos (by simpa using h), if_pos h]
    cases hk : k.getLast? with
    | none => rw [List.getLast?_eq_none_iff] at hk; subst hk; rfl
    | some y =>
      rw [List.getLast?_cons, hk]; rfl
  · rw [if_neg (by simpa using h), if_neg h, Option.or_none]

theorem collect_of_says (cc : CharClass) {attrs : List Attr} {l : List (Option (Str × ComponentRange))} (h : List.Forall₂ (Says cc) attrs l) :
    ∀ acc : BMap ComponentRange, ∃ m, collectRanges cc acc attrs = .ok m ∧ (∀ x, BMap.get m x = (lastAbout x l).or (BMap.get acc x))
      ∧ (BMap.Sorted acc → BMap.Sorted m) ∧ (m = [] ↔ acc = [] ∧ ∀ o ∈ l, o = none) := by
  induction h with
  | nil => intro acc; exact ⟨acc, rfl, fun _ => rfl, id, by simp⟩
  | @cons a o attrs l h1 h2 ih =>
    intro acc
    rw [collectRanges, (C108_attribute cc a o).2 h1, Res.bind_ok]
    cases o with
    | none =>
      obtain ⟨m, k1, k2, k3, k4⟩ := ih acc
      refine ⟨m, k1, fun x => by rw [lastAbout_none]; exact k2 x, k3, ?_⟩
      rw [k4]; simp
    | some p =>
      obtain ⟨n, r⟩ := p
      obtain ⟨m, k1, k2, k3, k4⟩ := ih (BMap.insert (stripUnderscore n) r acc)
      refine ⟨m, k1, fun x => ?_, fun hs => k3 (BMap.sorted_insert hs), ?_⟩
      · rw [k2, lastAbout_some, BMap.get_insert, stripUnderscore_eq]
        by_cases hx : x = n.filter (· ≠ '_')
        · rw [if_pos hx, if_pos hx.symm]
          cases lastAbout x l <;> rfl
        · rw [if_neg hx, if_neg (fun e => hx e.symm), Option.or_none]
      · have hne : BMap.insert (stripUnderscore n) r acc ≠ [] := by
          intro he
          have := BMap.get_insert (k := stripUnderscore n) (k' := stripUnderscore n) (v := r) (m := acc)
          rw [he, if_pos rfl] at this
          cases this
        rw [k4]
        constructor
        · rintro ⟨h, -⟩; exact absurd h hne
        · rintro ⟨-, h⟩; exact nomatch h _ (List.mem_cons_self ..)

theorem says_of_collect (cc : CharClass) {attrs : List Attr} {acc m : BMap ComponentRange} (h : collectRanges cc acc attrs = .ok m) :
    ∃ l, List.Forall₂ (Says cc) attrs l := by
  induction attrs generalizing acc with
  | nil => exact ⟨[], .nil⟩
  | cons a attrs ih =>
    rw [collectRanges] at h
    obtain ⟨o, h1, h⟩ := bind_eq_ok h
    cases o with
    | none =>
      obtain ⟨l, hl⟩ := ih h
      exact ⟨none :: l, .cons ((C108_attribute cc a none).1 h1) hl⟩
    | some p =>
      obtain ⟨l, hl⟩ := ih h
      exact ⟨some p :: l, .cons ((C108_attribute cc a (some p)).1 h1) hl⟩

/-- C108: exactly which ranges a function gets from its annotations. -/
theorem C108_ranges (cc : CharClass) (attrs : List Attr) (ranges : Option ComponentRanges) :
    parseComponentAttrs cc attrs = .ok ranges ↔ Ranges cc attrs ranges := by
  unfold parseComponentAttrs Ranges
  constructor
  · intro h
    obtain ⟨m, h1, h2⟩ := bind_eq_ok h
    obtain ⟨l, hl⟩ := says_of_collect cc h1
    obtain ⟨m', k1, k2, k3, k4⟩ := collect_of_says cc hl []
    rw [h1] at k1
    cases k1
    cases h2
    refine ⟨l, hl, ?_, fun x => ?_, fun m' hm' => ?_⟩
    · cases m with
      | nil => simpa using k4.1 rfl
      | cons a m =>
        simp only [List.isEmpty_cons, Bool.false_eq_true, if_false, reduceCtorEq, false_iff]
        intro hall
        exact absurd (k4.2 ⟨rfl, hall⟩) (by simp)
    · have := k2 x
      rw [BMap.get_nil, Option.or_none] at this
      cases m with
      | nil => simpa [rangeGet] using this
      | cons a m => simpa [rangeGet, BMap.get] using this
    · split at hm'
      · cases hm'
      · cases hm'; exact k3 List.Pairwise.nil
  · rintro ⟨l, hl, h1, h2, h3⟩
    obtain ⟨m, k1, k2, k3, k4⟩ := collect_of_says cc hl []
    rw [k1, Res.bind_ok]
    cases ranges with
    | none =>
      have : m = [] := k4.2 ⟨rfl, h1.1 rfl⟩
      subst this; rfl
    | some r =>
      have hne : m ≠ [] := fun hm => by
        have := h1.2 (k4.1 hm).2
        cases this
      have : m = r := by
        refine BMap.ext (k3 List.Pairwise.nil) (h3 r rfl) fun x => ?_
        rw [k2, BMap.get_nil, Option.or_none, ← h2]
        rfl
      subst this
      cases m with
      | nil => exact absurd rfl hne
      | cons a m => rfl

/-! ### Functions and files -/

theorem extracted_iff (cc : CharClass) (pallet : Str) (f : ImplFn) (ext : ChromaticExtrinsic) : Extracted cc pallet f ext ↔ Yields cc pallet f ext := by
  unfold Extracted Yields
  simp only [C108_body, C108_ranges]

/-- C108: exactly which functions are understood, and what is got from them. -/
theorem C108_function (cc : CharClass) (pallet : Str) (f : ImplFn) (name : Str) (t : ChromaticTerm) (r : Option ComponentRanges) :
    handleMethod cc f = .ok (name, t, r) ↔ Yields cc pallet f ⟨name, pallet, t, r⟩ := by
  rw [C46_method cc pallet, extracted_iff]

theorem clean_panic {α : Type} {x : Res α} (h : Clean x) : x ≠ .panic := by
  rcases h with ⟨_, rfl⟩ | ⟨_, rfl⟩ <;> exact fun h => nomatch h

theorem parseComponentAttrs_clean (cc : CharClass) (attrs : List Attr) : Clean (parseComponentAttrs cc attrs) :=
  clean_bind (collectRanges_clean _ _ _) fun _ _ => clean_ok _

/-- C108: exactly which functions crash the tool. -/
theorem C108_function_fatal (cc : CharClass) (f : ImplFn) : handleMethod cc f = .panic ↔ FatalFn f := by
  unfold handleMethod FatalFn
  constructor
  · intro h
    rcases bind_eq_panic.1 h with h1 | ⟨_, h1, h⟩
    · exact absurd h1 (clean_panic (checkOutput_clean _ _))
    refine ⟨(checkOutput_iff f).1 h1, ?_⟩
    rcases bind_eq_panic.1 h with h2 | ⟨e, h2, h⟩
    · left
      unfold onlyExpr at h2
      split at h2
      · cases h2
      · assumption
      · cases h2
    rcases bind_eq_panic.1 h with h3 | ⟨w, h3, h⟩
    · exact .inr ⟨e, (onlyExpr_iff _ _).1 h2, (C108_body_fatal e).1 h3⟩
    rcases bind_eq_panic.1 h with h4 | ⟨r, h4, h⟩
    · exact absurd h4 (clean_panic (parseComponentAttrs_clean _ _))
    · cases h
  · rintro ⟨h1, h2⟩
    rw [(checkOutput_iff f).2 h1, Res.bind_ok]
    rcases h2 with h2 | ⟨e, h2, h3⟩
    · rw [h2]; rfl
    · rw [(onlyExpr_iff _ _).2 h2, Res.bind_ok, (C108_body_fatal e).2 h3]; rfl

theorem yields_pallet {cc : CharClass} {p : Str} {f : ImplFn} {x : ChromaticExtrinsic} (h : Yields cc p f x) (q : Str) :
    Yields cc q f { x with pallet := q } := ⟨h.1, h.2.1, rfl, h.2.2.2⟩

theorem handleMethods_panic (cc : CharClass) (pallet : Str) (items : List ImplItem) :
    handleMethods cc pallet items = .panic ↔ ∃ fs f gs, functions items = fs ++ f :: gs ∧ (∀ g ∈ fs, ∃ p x, Yields cc p g x) ∧ FatalFn f := by
  induction items with
  | nil => simp [handleMethods, functions]
  | cons i l ih =>
    cases i with
    | other => rw [handleMethods, functions]; exact ih
    | fn g =>
      rw [handleMethods, functions, bind_eq_panic]
      constructor
      · rintro (h | ⟨⟨name, t, r⟩, h1, h2⟩)
        · exact ⟨[], g, functions l, rfl, by simp, (C108_function_fatal cc g).1 h⟩
        · rcases bind_eq_panic.1 h2 with h3 | ⟨_, -, h3⟩
          · obtain ⟨fs, f, gs, k1, k2, k3⟩ := ih.1 h3
            refine ⟨g :: fs, f, gs, by rw [k1]; rfl, fun g' hg' => ?_, k3⟩
            rcases List.mem_cons.1 hg' with rfl | hg'
            · exact ⟨pallet, _, (C108_function cc pallet g' name t r).1 h1⟩
            · exact k2 _ hg'
          · cases h3
      · rintro ⟨fs, f, gs, h, k2, k3⟩
        cases fs with
        | nil => cases h; exact .inl ((C108_function_fatal cc g).2 k3)
        | cons g' fs =>
          obtain ⟨rfl, h'⟩ : g = g' ∧ functions l = fs ++ f :: gs := by simpa using h
          obtain ⟨p, x, hx⟩ := k2 g (by simp)
          refine .inr ⟨(x.name, x.term, x.compRanges), (C108_function cc pallet g _ _ _).2 (yields_pallet hx pallet), ?_⟩
          dsimp only
          rw [ih.2 ⟨fs, f, gs, h', fun g' hg' => k2 g' (List.mem_cons_of_mem _ hg'), k3⟩]
          rfl

theorem handleItem_yields (cc : CharClass) (pallet : Str) (item : Item) (exts : List ChromaticExtrinsic) :
    handleItem cc pallet item = .ok exts ↔ YieldsAll cc pallet item exts := by
  rw [handleItem_iff]
  unfold Implements YieldsAll
  have : Extracted cc pallet = Yields cc pallet := by
    funext f x
    exact propext (extracted_iff cc pallet f x)
  rw [this]

theorem handleItem_panic (cc : CharClass) (pallet : Str) (item : Item) : handleItem cc pallet item = .panic ↔ FatalItem cc item := by
  unfold FatalItem
  cases item with
  | impl ty items =>
    rw [handleItem]
    constructor
    · intro h
      rcases bind_eq_panic.1 h with h1 | ⟨_, h1, h⟩
      · exact absurd h1 (clean_panic (checkSelfTy_clean ty))
      rcases bind_eq_panic.1 h with h2 | ⟨w, h2, h⟩
      · obtain ⟨fs, f, gs, k1, k2, k3⟩ := (handleMethods_panic cc pallet items).1 h2
        exact ⟨ty, items, fs, f, gs, rfl, (C46_eligible ty).1 h1, k1, k2, k3⟩
      · split at h <;> cases h
    · rintro ⟨ty', items', fs, f, gs, h, h1, h2, h3, h4⟩
      cases h
      rw [(C46_eligible ty).2 h1, Res.bind_ok, (handleMethods_panic cc pallet items).2 ⟨fs, f, gs, h2, h3, h4⟩]
      rfl
  | _ => simp [handleItem]

theorem handleMethod_diverge (cc : CharClass) (f : ImplFn) : handleMethod cc f ≠ .diverge := by
  unfold handleMethod
  refine diverge_bind (clean_diverge (checkOutput_clean _ _)) fun _ => diverge_bind ?_ fun e => diverge_bind (parseBody_diverge e) fun _ =>
    diverge_bind (clean_diverge (parseComponentAttrs_clean _ _)) fun _ h => nomatch h
  unfold onlyExpr
  split <;> exact fun h => nomatch h

theorem handleMethods_diverge (cc : CharClass) (pallet : Str) (items : List ImplItem) : handleMethods cc pallet items ≠ .diverge := by
  induction items with
  | nil => exact fun h => nomatch h
  | cons i l ih =>
    cases i with
    | other => exact ih
    | fn g => exact diverge_bind (handleMethod_diverge cc g) fun _ => diverge_bind ih fun _ h => nomatch h

theorem handleItem_diverge (cc : CharClass) (pallet : Str) (item : Item) : handleItem cc pallet item ≠ .diverge := by
  cases item with
  | impl ty items =>
    refine diverge_bind (clean_diverge (checkSelfTy_clean ty)) fun _ => diverge_bind (handleMethods_diverge cc pallet items) fun w => ?_
    split <;> exact fun h => nomatch h
  | _ => exact fun h => nomatch h

theorem yieldsAll_pallet {cc : CharClass} {p : Str} {i : Item} {x : List ChromaticExtrinsic} (h : YieldsAll cc p i x) (q : Str) :
    YieldsAll cc q i (x.map fun e => { e with pallet := q }) := by
  obtain ⟨ty, items, h1, h2, h3, h4⟩ := h
  refine ⟨ty, items, h1, h2, h3, ?_⟩
  rw [List.forall₂_map_right_iff]
  exact h4.imp fun _ _ h => yields_pallet h q

theorem passed_iff (cc : CharClass) (pallet : Str) (i : Item) : Passed cc i ↔ ∃ m, handleItem cc pallet i = .err m := by
  unfold Passed
  rw [← handleItem_panic cc pallet]
  have : (∀ p x, ¬ YieldsAll cc p i x) ↔ ∀ x, handleItem cc pallet i ≠ .ok x := by
    constructor
    · intro h x hx; exact h _ _ ((handleItem_yields cc pallet i x).1 hx)
    · intro h p x hx; exact h _ ((handleItem_yields cc pallet i _).2 (yieldsAll_pallet hx pallet))
  rw [this]
  cases h : handleItem cc pallet i with
  | ok x => simp
  | err m => simp
  | panic => simp
  | diverge => exact absurd h (handleItem_diverge cc pallet i)

theorem firstOk_panic {α : Type} (f : Item → Res α) (msg : Str) (items : List Item) :
    firstOk f msg items = .panic ↔ ∃ pre i post, items = pre ++ i :: post ∧ f i = .panic ∧ ∀ j ∈ pre, ∃ m, f j = .err m := by
  induction items with
  | nil => simp [firstOk]
  | cons a l ih =>
    rw [firstOk]
    cases h : f a with
    | err m =>
      simp only
      rw [ih]
      constructor
      · rintro ⟨pre, i, post, rfl, h1, h2⟩
        refine ⟨a :: pre, i, post, rfl, h1, fun j hj => ?_⟩
        rcases List.mem_cons.1 hj with rfl | hj
        · exact ⟨m, h⟩
        · exact h2 j hj
      · rintro ⟨pre, i, post, h0, h1, h2⟩
        cases pre with
        | nil => cases h0; rw [h] at h1; cases h1
        | cons c pre => cases h0; exact ⟨pre, i, post, rfl, h1, fun j hj => h2 j (List.mem_cons_of_mem _ hj)⟩
    | _ =>
      simp only
      constructor
      · intro h'
        first
        | cases h'; exact ⟨[], a, l, rfl, h, by simp⟩
        | cases h'
      · rintro ⟨pre, i, post, h0, h1, h2⟩
        cases pre with
        | nil => cases h0; rw [h] at h1; trivial
        | cons c pre =>
          cases h0
          obtain ⟨m, hm⟩ := h2 a (by simp)
          rw [h] at hm
          cases hm

theorem firstOk_refused {α : Type} (f : Item → Res α) (hf : ∀ i, f i ≠ .diverge) (msg : Str) (items : List Item) :
    (∃ m, firstOk f msg items = .err m) ↔ ∀ j ∈ items, ∃ m, f j = .err m := by
  induction items with
  | nil => simp [firstOk]
  | cons a l ih =>
    rw [firstOk]
    cases h : f a with
    | err m => simp only; rw [ih]; simp [h]
    | ok x => simp [h]
    | panic => simp [h]
    | diverge => exact absurd h (hf a)

/-- C108: exactly which files are understood, and what is got from them: the functions of the first block that yields something, if everything before it is
passed over. -/
theorem C108_file (syn : SynParser) (cc : CharClass) (pallet content : Str) (exts : List ChromaticExtrinsic) :
    parseContent syn cc pallet content = .ok exts
      ↔ ∃ pre i post, syn content = .ok (pre ++ i :: post) ∧ YieldsAll cc pallet i exts ∧ ∀ j ∈ pre, Passed cc j := by
  unfold parseContent
  cases hs : syn content with
  | error e => simp
  | ok items =>
    simp only [Except.ok.injEq]
    rw [firstOk_iff]
    simp only [handleItem_yields, ← passed_iff]

/-- C108: exactly which files crash the tool: those with a fatal block, if everything before it is passed over. -/
theorem C108_file_fatal (syn : SynParser) (cc : CharClass) (pallet content : Str) :
    parseContent syn cc pallet content = .panic ↔ FatalText syn cc content := by
  unfold parseContent FatalText
  cases hs : syn content with
  | error e => simp
  | ok items =>
    simp only [Except.ok.injEq]
    rw [firstOk_panic]
    simp only [handleItem_panic, ← passed_iff]

/-- C108: exactly which files are refused: those that are not Rust, and those in which everything is passed over. -/
theorem C108_file_refused (syn : SynParser) (cc : CharClass) (pallet content : Str) :
    (∃ m, parseContent syn cc pallet content = .err m)
      ↔ (∃ e, syn content = .error e) ∨ ∃ items, syn content = .ok items ∧ ∀ j ∈ items, Passed cc j := by
  unfold parseContent
  cases hs : syn content with
  | error e => simp
  | ok items =>
    simp only [reduceCtorEq, exists_false, false_or, Except.ok.injEq]
    rw [firstOk_refused _ (handleItem_diverge cc pallet)]
    simp only [exists_eq_left', ← passed_iff]

/-- C108: there is no other end. -/
theorem C108_file_ends (syn : SynParser) (cc : CharClass) (pallet content : Str) : parseContent syn cc pallet content ≠ .diverge := by
  unfold parseContent
  cases hs : syn content with
  | error e => exact fun h => nomatch h
  | ok items =>
    simp only
    clear hs
    induction items with
    | nil => exact fun h => nomatch h
    | cons a l ih =>
      rw [firstOk]
      cases h : handleItem cc pallet a with
      | err m => exact ih
      | diverge => exact absurd h (handleItem_diverge cc pallet a)
      | _ => exact fun h => nomatch h

/-! ### Several files -/

theorem withFile_panic {α : Type} (p : Path) (r : Res α) : withFile p r = .panic ↔ r = .panic := by
  cases r <;> simp [withFile]

theorem parseFileInRepo_panic (env : Env) (fs : Fs) (repo file : Path) : parseFileInRepo env fs repo file = .panic ↔ FatalFile env fs file := by
  unfold parseFileInRepo readFile FatalFile
  cases hf : fs file with
  | error e => simp
  | ok content =>
    rw [Res.bind_ok, PathStripping.strip, Res.bind_ok, withFile_panic, C108_file_fatal]
    simp

theorem parseFileInRepo_ok (env : Env) (fs : Fs) (repo file : Path) (exts : List ChromaticExtrinsic) :
    parseFileInRepo env fs repo file = .ok exts ↔ UnderstoodFile env fs file (Path.display ((Path.stripPrefix repo file).getD file)) exts := by
  unfold parseFileInRepo readFile UnderstoodFile
  cases hf : fs file with
  | error e => simp
  | ok content =>
    rw [Res.bind_ok, PathStripping.strip, Res.bind_ok]
    have : ∀ r : Res (List ChromaticExtrinsic), withFile file r = .ok exts ↔ r = .ok exts := fun r => by cases r <;> simp [withFile]
    rw [this, C108_file]
    simp

theorem parseFileInRepo_diverge (env : Env) (fs : Fs) (repo file : Path) : parseFileInRepo env fs repo file ≠ .diverge := by
  unfold parseFileInRepo readFile
  cases hf : fs file with
  | error e => exact fun h => nomatch h
  | ok content =>
    rw [Res.bind_ok, PathStripping.strip, Res.bind_ok]
    cases h : parseContent env.syn env.cc (Path.display ((Path.stripPrefix repo file).getD file)) content with
    | diverge => exact absurd h (C108_file_ends _ _ _ _)
    | _ => exact fun h => nomatch h

/-- C108: if every file must be understood, the tool crashes exactly if there is a fatal file and all files before it are understood. -/
theorem C108_strict (env : Env) (fs : Fs) (repo : Path) (paths : List Path) :
    parseFilesInRepo env fs repo paths = .panic
      ↔ ∃ pre p post, paths = pre ++ p :: post ∧ FatalFile env fs p ∧ ∀ q ∈ pre, ∃ n x, UnderstoodFile env fs q n x := by
  unfold parseFilesInRepo
  have conv : ∀ q n x, UnderstoodFile env fs q n x → ∃ y, parseFileInRepo env fs repo q = .ok y := by
    rintro q n x ⟨content, pre, i, post, h1, h2, h3, h4⟩
    exact ⟨_, (parseFileInRepo_ok env fs repo q _).2 ⟨content, pre, i, post, h1, h2, yieldsAll_pallet h3 _, h4⟩⟩
  induction paths with
  | nil => simp [parseAll]
  | cons a l ih =>
    rw [parseAll, bind_eq_panic]
    constructor
    · rintro (h | ⟨x, h1, h2⟩)
      · exact ⟨[], a, l, rfl, (parseFileInRepo_panic env fs repo a).1 h, by simp⟩
      · rcases bind_eq_panic.1 h2 with h3 | ⟨_, -, h3⟩
        · obtain ⟨pre, p, post, k1, k2, k3⟩ := ih.1 h3
          refine ⟨a :: pre, p, post, by rw [k1]; rfl, k2, fun q hq => ?_⟩
          rcases List.mem_cons.1 hq with rfl | hq
          · exact ⟨_, x, (parseFileInRepo_ok env fs repo q x).1 h1⟩
          · exact k3 q hq
        · cases h3
    · rintro ⟨pre, p, post, h, k2, k3⟩
      cases pre with
      | nil => cases h; exact .inl ((parseFileInRepo_panic env fs repo a).2 k2)
      | cons c pre =>
        obtain ⟨rfl, h'⟩ : a = c ∧ l = pre ++ p :: post := by simpa using h
        obtain ⟨n, x, hx⟩ := k3 a (by simp)
        obtain ⟨y, hy⟩ := conv a n x hx
        refine .inr ⟨y, hy, ?_⟩
        rw [ih.2 ⟨pre, p, post, h', k2, fun q hq => k3 q (List.mem_cons_of_mem _ hq)⟩]
        rfl

/-- C108: if errors are ignored, the tool crashes exactly if there is a fatal file, wherever it is. -/
theorem C108_lenient (env : Env) (fs : Fs) (repo : Path) (paths : List Path) :
    tryParseFilesInRepo env fs repo paths = .panic ↔ ∃ p ∈ paths, FatalFile env fs p := by
  unfold tryParseFilesInRepo
  induction paths with
  | nil => simp [tryParseAll]
  | cons a l ih =>
    rw [tryParseAll]
    simp only [List.mem_cons, exists_eq_or_imp, ← ih, ← parseFileInRepo_panic env fs repo a]
    generalize hr : tryParseAll (parseFileInRepo env fs repo) l = r
    cases h : parseFileInRepo env fs repo a with
    | ok x => cases r <;> simp
    | err m => cases r <;> simp
    | panic => simp
    | diverge => exact absurd h (parseFileInRepo_diverge env fs repo a)

/-- C108: if errors are ignored and there is no fatal file, the tool gets what the files that are understood yield, in their order, and nothing else. -/
theorem C108_lenient_result (env : Env) (fs : Fs) (repo : Path) (paths : List Path) (h : ∀ p ∈ paths, ¬ FatalFile env fs p) :
    ∃ parts, List.Forall₂ (fun p x => UnderstoodFile env fs p (Path.display ((Path.stripPrefix repo p).getD p)) x
        ∨ x = [] ∧ ∀ n y, ¬ UnderstoodFile env fs p n y) paths parts
      ∧ tryParseFilesInRepo env fs repo paths = .ok parts.flatten := by
  unfold tryParseFilesInRepo
  induction paths with
  | nil => exact ⟨[], .nil, rfl⟩
  | cons a l ih =>
    obtain ⟨parts, h1, h2⟩ := ih fun p hp => h p (List.mem_cons_of_mem _ hp)
    rw [tryParseAll, h2]
    cases ha : parseFileInRepo env fs repo a with
    | ok x => exact ⟨x :: parts, .cons (.inl ((parseFileInRepo_ok env fs repo a x).1 ha)) h1, rfl⟩
    | err m =>
      refine ⟨[] :: parts, .cons (.inr ⟨rfl, ?_⟩) h1, rfl⟩
      rintro n y ⟨content, pre, i, post, k1, k2, k3, k4⟩
      rw [(parseFileInRepo_ok env fs repo a _).2 ⟨content, pre, i, post, k1, k2, yieldsAll_pallet k3 _, k4⟩] at ha
      cases ha
    | panic => exact absurd ((parseFileInRepo_panic env fs repo a).1 ha) (h a (by simp))
    | diverge => exact absurd ha (parseFileInRepo_diverge env fs repo a)

theorem tryParseAll_ok (f : Path → Res (List ChromaticExtrinsic)) (l : List Path) (r : List ChromaticExtrinsic) :
    tryParseAll f l = .ok r ↔ ∃ rs, List.Forall₂ (fun p x => f p = .ok x ∨ (x = [] ∧ ∃ m, f p = .err m)) l rs ∧ r = rs.flatten := by
  induction l generalizing r with
  | nil =>
    constructor
    · intro h; cases h; exact ⟨[], .nil, rfl⟩
    · rintro ⟨rs, h, rfl⟩; cases h; rfl
  | cons p l ih =>
    rw [tryParseAll]
    constructor
    · intro h
      cases hp : f p with
      | panic => rw [hp] at h; cases h
      | diverge => rw [hp] at h; cases h
      | ok a =>
        rw [hp] at h
        obtain ⟨a', ha, h⟩ := bind_eq_ok h
        obtain ⟨r', hr, h⟩ := bind_eq_ok h
        cases h; cases ha
        obtain ⟨rs, h1, rfl⟩ := (ih r').1 hr
        exact ⟨a :: rs, .cons (.inl hp) h1, rfl⟩
      | err m =>
        rw [hp] at h
        obtain ⟨a', ha, h⟩ := bind_eq_ok h
        obtain ⟨r', hr, h⟩ := bind_eq_ok h
        cases h; cases ha
        obtain ⟨rs, h1, rfl⟩ := (ih r').1 hr
        exact ⟨[] :: rs, .cons (.inr ⟨rfl, m, hp⟩) h1, rfl⟩
    · rintro ⟨rs, h, rfl⟩
      cases h with
      | @cons _ x _ rs h1 h2 =>
        rw [(ih rs.flatten).2 ⟨rs, h2, rfl⟩]
        rcases h1 with h1 | ⟨rfl, m, h1⟩ <;> rw [h1] <;> rfl

theorem parseFileInRepo_refused (env : Env) (fs : Fs) (repo file : Path) : (∃ m, parseFileInRepo env fs repo file = .err m) ↔ RefusedFile env fs file := by
  unfold parseFileInRepo readFile RefusedFile
  cases hf : fs file with
  | error e => simp
  | ok content =>
    rw [Res.bind_ok, PathStripping.strip, Res.bind_ok]
    simp only [reduceCtorEq, exists_false, Except.ok.injEq, exists_eq_left', false_or]
    rw [← C108_file_refused env.syn env.cc (Path.display ((Path.stripPrefix repo file).getD file))]
    cases parseContent env.syn env.cc (Path.display ((Path.stripPrefix repo file).getD file)) content <;> simp [withFile]

theorem understood_name {env : Env} {fs : Fs} {file : Path} {n : Str} {x : List ChromaticExtrinsic} (h : UnderstoodFile env fs file n x) (n' : Str) :
    ∃ y, UnderstoodFile env fs file n' y := by
  obtain ⟨content, pre, i, post, h1, h2, h3, h4⟩ := h
  exact ⟨_, content, pre, i, post, h1, h2, yieldsAll_pallet h3 _, h4⟩

/-- C108: every file is understood, refused or fatal. -/
theorem C108_trichotomy (env : Env) (fs : Fs) (file : Path) (n : Str) :
    (∃ x, UnderstoodFile env fs file n x) ∨ RefusedFile env fs file ∨ FatalFile env fs file := by
  cases h : parseFileInRepo env fs [] file with
  | ok x => exact .inl (understood_name ((parseFileInRepo_ok env fs [] file x).1 h) n)
  | err m => exact .inr (.inl ((parseFileInRepo_refused env fs [] file).1 ⟨m, h⟩))
  | panic => exact .inr (.inr ((parseFileInRepo_panic env fs [] file).1 h))
  | diverge => exact absurd h (parseFileInRepo_diverge env fs [] file)

/-- C108: no file is two of these. -/
theorem C108_exclusive (env : Env) (fs : Fs) (file : Path) (n : Str) (x : List ChromaticExtrinsic) :
    ¬ (UnderstoodFile env fs file n x ∧ RefusedFile env fs file) ∧ ¬ (UnderstoodFile env fs file n x ∧ FatalFile env fs file) ∧
      ¬ (RefusedFile env fs file ∧ FatalFile env fs file) := by
  rw [← parseFileInRepo_refused env fs [] file, ← parseFileInRepo_panic env fs [] file]
  refine ⟨?_, ?_, ?_⟩
  · rintro ⟨h, m, hm⟩
    obtain ⟨y, hy⟩ := understood_name h (Path.display ((Path.stripPrefix [] file).getD file))
    rw [(parseFileInRepo_ok _ _ _ _ _).2 hy] at hm
    cases hm
  · rintro ⟨h, hm⟩
    obtain ⟨y, hy⟩ := understood_name h (Path.display ((Path.stripPrefix [] file).getD file))
    rw [(parseFileInRepo_ok _ _ _ _ _).2 hy] at hm
    cases hm
  · rintro ⟨⟨m, h⟩, hm⟩
    rw [h] at hm
    cases hm

/-! ### Examples -/

/-- 2^128. -/
def exHuge : Expr := .lit (.int (str% "340282366920938463463374607431768211456"))

theorem exHuge_bad : Fatal1 exHuge := parseScalar_fatal (by decide +kernel)

private def exWeightFn (e : Expr) : ImplFn := ⟨str% "f", [], some (.path false [str% "Weight"]), [.expr e]⟩
private theorem exWeightFn_weight (e : Expr) : ReturnsWeight (exWeightFn e) := ⟨false, [str% "Weight"], str% "Weight", [], rfl, rfl, rfl⟩
private theorem exWeightFn_fatal {e : Expr} (h : parseBody e = .panic) : FatalFn (exWeightFn e) :=
  ⟨exWeightFn_weight e, .inr ⟨e, rfl, (C108_body_fatal e).1 h⟩⟩
private def exFrom (a c : Expr) : Expr := .call (.path [str% "Weight", str% "from_parts"]) [a, c] false

-- `Weight::from_parts(2^128, n)` is fatal, as is `5.saturating_add(2^128)`; but `n.unknown(2^128)` is merely refused, though a hostile function by C49.
example : FatalFn (exWeightFn (exFrom exHuge (.path [str% "n"]))) := exWeightFn_fatal (by decide +kernel)
example : FatalFn (exWeightFn (.methodCall (.lit (.int (str% "5"))) (str% "saturating_add") [exHuge] false)) :=
  exWeightFn_fatal (by decide +kernel)
example : Hostile (exWeightFn (.methodCall (.path [str% "n"]) (str% "unknown") [exHuge] false))
    ∧ ¬ FatalFn (exWeightFn (.methodCall (.path [str% "n"]) (str% "unknown") [exHuge] false)) := by
  refine ⟨.inr ⟨_, rfl, .marg (List.mem_singleton.2 rfl) (.lit ?_)⟩, ?_⟩
  · intro digits n h hr
    cases h
    have : n = 340282366920938463463374607431768211456 := by
      have e : readNat (str% "340282366920938463463374607431768211456") = some 340282366920938463463374607431768211456 := by decide +kernel
      rw [e] at hr
      exact (Option.some.inj hr).symm
    subst this; norm_num
  · rintro ⟨-, h | ⟨e, h, hf⟩⟩
    · cases h
    · cases h
      have := (C108_body_fatal _).2 hf
      exact absurd this (by decide +kernel)

-- The order of the blocks decides: behind a block that yields something, a fatal one does no harm.
private def exBlock (f : ImplFn) : Item := .impl (.tuple 0) [.fn f]
private def exGoodFn : ImplFn := exWeightFn (exFrom (.lit (.int (str% "7"))) (.lit (.int (str% "0"))))
private def exBadFn : ImplFn := exWeightFn (exFrom exHuge (.lit (.int (str% "0"))))
example : (∃ x, parseContent (fun _ => .ok [exBlock exGoodFn, exBlock exBadFn]) asciiClass (str% "p") [] = .ok x)
    ∧ parseContent (fun _ => .ok [exBlock exBadFn, exBlock exGoodFn]) asciiClass (str% "p") [] = .panic :=
  ⟨⟨[⟨str% "f", str% "p", .value ⟨7, 0⟩, none⟩], by decide +kernel⟩, by decide +kernel⟩
example : FatalItem asciiClass (exBlock exBadFn) ∧ YieldsAll asciiClass (str% "p") (exBlock exGoodFn) [⟨str% "f", str% "p", .value ⟨7, 0⟩, none⟩] :=
  ⟨(handleItem_panic asciiClass (str% "p") _).1 (by decide +kernel), (handleItem_yields asciiClass (str% "p") _ _).1 (by decide +kernel)⟩

-- A range is read, an annotation with too large a number makes the function unusable.
example : Ranges asciiClass [.nameValue [str% "doc"] (rangeLine (str% "n") 1 10), .other] (some [(str% "n", ⟨1, 10⟩)]) :=
  (C108_ranges _ _ _).1 (by decide +kernel)
example : ∀ r, ¬ Ranges asciiClass [.nameValue [str% "doc"] (rangeLine (str% "n") 1 4294967296)] r := by
  intro r
  rw [← C108_ranges]
  intro h
  have : parseComponentAttrs asciiClass [.nameValue [str% "doc"] (rangeLine (str% "n") 1 4294967296)] = .err (str% "Could not parse max value: …") := by
    decide +kernel
  rw [this] at h
  cases h

-- One fatal file among the files suffices if errors are ignored; if not, an unreadable file before it prevents the crash.
private def exEnv : Env := ⟨fun s => if s = str% "bad" then .ok [exBlock exBadFn] else .error (str% "no Rust"), asciiClass⟩
private def exFiles : Fs := fun p => if p = [.normal (str% "b")] then .ok (str% "bad") else .ok (str% "x")
example : tryParseFilesInRepo exEnv exFiles [] [[.normal (str% "a")], [.normal (str% "b")]] = .panic
    ∧ (∃ m, parseFilesInRepo exEnv exFiles [] [[.normal (str% "a")], [.normal (str% "b")]] = .err m) :=
  ⟨by decide +kernel, ⟨str% "a: syn refused to parse content: \"x\": no Rust", by decide +kernel⟩⟩
example : FatalFile exEnv exFiles [.normal (str% "b")] := (parseFileInRepo_panic exEnv exFiles [] _).1 (by decide +kernel)

end Swc
