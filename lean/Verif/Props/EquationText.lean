/-
C12 for the text of an equation: it spells the equation, it can be cut into tokens in one way only, and so equations that are printed alike are alike.
-/
import Verif.Props.CliOut

namespace Swc

open Spec Term

/-! ### Specification -/

/-- A variable that cannot be taken for anything else: not empty, without spaces and brackets, and not beginning with a digit. -/
def Spec.WordVar (v : Str) : Prop := (∀ c ∈ v, c ≠ ' ' ∧ c ≠ '(' ∧ c ≠ ')') ∧ ∃ c r, v = c :: r ∧ c.isDigit = false

/-- A token with a clear spelling: numbers are 128-bit numbers, variables are words. -/
def Spec.ClearTok : Tok Nat → Prop
  | .num n => n < 2 ^ 128
  | .wt n => n < 2 ^ 128
  | .ident v => WordVar v
  | _ => True

/-- The token is a number. -/
def Spec.NumTok (k : Tok Nat) : Prop := (∃ n, k = .num n) ∨ ∃ n, k = .wt n

/-- Every number of the equation is less than `m`. -/
def Spec.NumbersBelow (m : Nat) (t : SimpleTerm) : Prop := ∀ n, Sub (.value n) t ∨ Sub (.scalar n) t → n < m

/-- Equations of the same form whose numbers differ by two percent at most. -/
inductive Spec.Near : SimpleTerm → SimpleTerm → Prop
  | number {t t' : SimpleTerm} {n n' : Nat} : isLit n t → isLit n' t' → 50 * n ≤ 51 * n' → 50 * n' ≤ 51 * n → Near t t'
  | var (v : Str) : Near (.var v) (.var v)
  | mul {l r l' r' : SimpleTerm} : Near l l' → Near r r' → Near (.mul l r) (.mul l' r')
  | add {l r l' r' : SimpleTerm} : Near l l' → Near r r' → Near (.add l r) (.add l' r')

/-- The largest number of numbers multiplied with each other. -/
def Spec.degree : SimpleTerm → Nat
  | .value _ => 1
  | .scalar _ => 1
  | .var _ => 0
  | .mul l r => degree l + degree r
  | .add l r => max (degree l) (degree r)

namespace EquationText

/-- Nothing that ends an operand. -/
def Solid (s : Str) : Prop := ∀ c ∈ s, c ≠ ' ' ∧ c ≠ '(' ∧ c ≠ ')'

theorem solid_num {c : Char} (h : isNumChar c = true) : c ≠ ' ' ∧ c ≠ '(' ∧ c ≠ ')' := by
  refine ⟨?_, ?_, ?_⟩ <;> rintro rfl <;> revert h <;> decide

theorem takeWhile_imp {p : Char → Bool} {s : Str} {c : Char} (h : c ∈ s.takeWhile p) : p c = true := by
  induction s with
  | nil => cases h
  | cons a s ih =>
    rw [List.takeWhile_cons] at h
    split at h
    · rcases List.mem_cons.1 h with rfl | h
      · assumption
      · exact ih h
    · cases h

theorem rendering_shape {n : Nat} {s : Str} (h : GoodRendering scalarUnits n s) : Solid s ∧ ∃ c r, s = c :: r ∧ c.isDigit = true := by
  obtain ⟨q, name, u, h1, h2, -⟩ := h
  unfold readQuantity at h1
  cases hd : readDec (s.takeWhile isNumChar) with
  | none => rw [hd] at h1; cases h1
  | some q' =>
    rw [hd] at h1
    simp only [Option.map_some, Option.some.injEq, Prod.mk.injEq] at h1
    obtain ⟨-, h1⟩ := h1
    constructor
    · intro c hc
      rw [← List.takeWhile_append_dropWhile (p := isNumChar) (l := s), List.mem_append] at hc
      rcases hc with hc | hc
      · exact solid_num (takeWhile_imp hc)
      · rw [h1] at hc
        simp only [scalarUnits, List.mem_cons, List.not_mem_nil, or_false, Prod.mk.injEq] at h2
        rcases h2 with ⟨rfl, -⟩ | ⟨rfl, -⟩ | ⟨rfl, -⟩ | ⟨rfl, -⟩ | ⟨rfl, -⟩ <;> revert c <;> decide
    · cases s with
      | nil => cases hd
      | cons c r =>
        refine ⟨c, r, rfl, ?_⟩
        by_contra hc
        have hc : c.isDigit = false := by simpa using hc
        by_cases hp : c = '.'
        · subst hp
          simp [isNumChar, readDec, readNat] at hd
        · have : isNumChar c = false := by simp [isNumChar, hc, hp]
          rw [List.takeWhile_cons, this] at hd
          cases hd

/-- Operands. -/
def IsAtom (k : Tok Nat) : Prop := NumTok k ∨ ∃ v, k = .ident v

theorem atom_solid {k : Tok Nat} {s : Str} (ha : IsAtom k) (hc : ClearTok k) (h : Spelled k s) : Solid s := by
  cases h with
  | num h => exact (rendering_shape (h hc)).1
  | wt h => exact (rendering_shape (h hc)).1
  | ident v => exact hc.1
  | _ => rcases ha with (⟨_, h⟩ | ⟨_, h⟩) | ⟨_, h⟩ <;> cases h

theorem atom_head {k : Tok Nat} {s : Str} (ha : IsAtom k) (hc : ClearTok k) (h : Spelled k s) :
    ∃ c r, s = c :: r ∧ (c.isDigit = true ↔ NumTok k) := by
  cases h with
  | num h =>
    obtain ⟨-, c, r, e, hd⟩ := rendering_shape (h hc)
    exact ⟨c, r, e, by simp [hd, NumTok]⟩
  | wt h =>
    obtain ⟨-, c, r, e, hd⟩ := rendering_shape (h hc)
    exact ⟨c, r, e, by simp [hd, NumTok]⟩
  | ident v =>
    obtain ⟨-, c, r, e, hd⟩ := hc
    exact ⟨c, r, e, by simp [hd, NumTok]⟩
  | _ => rcases ha with (⟨_, h⟩ | ⟨_, h⟩) | ⟨_, h⟩ <;> cases h

/-- The text after an operand. -/
def Stops (s : Str) : Prop := s = [] ∨ ∃ c r, s = c :: r ∧ (c = ' ' ∨ c = '(' ∨ c = ')')

theorem cut_solid {a a' r r' : Str} (ha : Solid a) (ha' : Solid a') (hr : Stops r) (hr' : Stops r') (h : a ++ r = a' ++ r') : a = a' ∧ r = r' := by
  induction a generalizing a' with
  | nil =>
    cases a' with
    | nil => exact ⟨rfl, h⟩
    | cons c a' =>
      have hc := ha' c (by simp)
      rcases hr with rfl | ⟨d, r, rfl, hd⟩
      · cases h
      · simp only [List.nil_append, List.cons_append, List.cons.injEq] at h
        obtain ⟨rfl, -⟩ := h
        rcases hd with rfl | rfl | rfl <;> simp at hc
  | cons c a ih =>
    cases a' with
    | nil =>
      have hc := ha c (by simp)
      rcases hr' with rfl | ⟨d, r, rfl, hd⟩
      · cases h
      · simp only [List.nil_append, List.cons_append, List.cons.injEq] at h
        obtain ⟨rfl, -⟩ := h
        rcases hd with rfl | rfl | rfl <;> simp at hc
    | cons c' a' =>
      simp only [List.cons_append, List.cons.injEq] at h
      obtain ⟨rfl, h⟩ := h
      obtain ⟨rfl, h'⟩ := ih (fun x hx => ha x (by simp [hx])) (fun x hx => ha' x (by simp [hx])) h
      exact ⟨rfl, h'⟩

/-- Which tokens may come next, and what is expected after them. -/
theorem readTok_want {s s' : RState} {k : Tok Nat} (h : readTok s k = some s') :
    (s.want = true ∧ ((IsAtom k ∧ s'.want = false) ∨ (k = .lpar ∧ s'.want = true))) ∨
    (s.want = false ∧ ((k = .plus ∧ s'.want = true) ∨ (k = .times ∧ s'.want = true) ∨ (k = .rpar ∧ s'.want = false))) := by
  have op : ∀ {x : SimpleTerm} {s s' : RState}, operand x s = some s' → s.want = true ∧ s'.want = false := by
    intro x s s' h
    unfold operand at h
    split at h
    · rename_i hw; cases h; exact ⟨hw, rfl⟩
    · cases h
  cases k with
  | num n => exact .inl ⟨(op h).1, .inl ⟨.inl (.inl ⟨n, rfl⟩), (op h).2⟩⟩
  | wt n => exact .inl ⟨(op h).1, .inl ⟨.inl (.inr ⟨n, rfl⟩), (op h).2⟩⟩
  | ident v => exact .inl ⟨(op h).1, .inl ⟨.inr ⟨v, rfl⟩, (op h).2⟩⟩
  | times =>
    simp only [readTok] at h
    split at h
    · cases h
    · rename_i hw; cases h; exact .inr ⟨by simpa using hw, .inr (.inl ⟨rfl, rfl⟩)⟩
  | plus =>
    simp only [readTok] at h
    split at h
    · cases h
    · rename_i hw
      split at h
      · cases h
      · cases h; exact .inr ⟨by simpa using hw, .inl ⟨rfl, rfl⟩⟩
  | lpar =>
    simp only [readTok] at h
    split at h
    · rename_i hw; cases h; exact .inl ⟨hw, .inr ⟨rfl, rfl⟩⟩
    · cases h
  | rpar =>
    simp only [readTok] at h
    split at h
    · cases h
    · rename_i hw
      split at h
      · exact .inr ⟨by simpa using hw, .inr (.inr ⟨rfl, (op h).2⟩)⟩
      · cases h

theorem stops_next {s : RState} {ks : List (Tok Nat)} {parts : List Str} (hs : s.want = false) (h : (readToks s ks).isSome)
    (hp : List.Forall₂ Spelled ks parts) : Stops parts.flatten := by
  cases hp with
  | nil => exact .inl rfl
  | @cons k p ks parts hk _ =>
    simp only [readToks] at h
    cases hr : readTok s k with
    | none => rw [hr] at h; cases h
    | some s' =>
      rcases readTok_want hr with ⟨hw, -⟩ | ⟨-, ⟨rfl, -⟩ | ⟨rfl, -⟩ | ⟨rfl, -⟩⟩
      · rw [hs] at hw; cases hw
      all_goals cases hk; exact .inr ⟨_, _, rfl, by simp⟩

/-- Two tokens with the same spelling. -/
def Alike (k k' : Tok Nat) : Prop := k = k' ∨ (NumTok k ∧ NumTok k')

theorem unique_from {ks : List (Tok Nat)} : ∀ {ks' : List (Tok Nat)} {parts parts' : List Str} {s s' : RState},
    List.Forall₂ Spelled ks parts → List.Forall₂ Spelled ks' parts' → (∀ k ∈ ks, ClearTok k) → (∀ k ∈ ks', ClearTok k) → s.want = s'.want →
    (readToks s ks).isSome → (readToks s' ks').isSome → parts.flatten = parts'.flatten → parts = parts' ∧ List.Forall₂ Alike ks ks' := by
  have nonempty : ∀ {k : Tok Nat} {p : Str}, Spelled k p → ClearTok k → p ≠ [] := by
    intro k p h hc e
    subst e
    by_cases ha : IsAtom k
    · obtain ⟨c, r, e, -⟩ := atom_head ha hc h
      cases e
    · generalize he : ([] : Str) = e at h
      cases h with
      | num _ => exact ha (.inl (.inl ⟨_, rfl⟩))
      | wt _ => exact ha (.inl (.inr ⟨_, rfl⟩))
      | ident _ => exact ha (.inr ⟨_, rfl⟩)
      | _ => cases he
  induction ks with
  | nil =>
    intro ks' parts parts' s s' h h' hc hc' hw hr hr' he
    cases h
    cases h' with
    | nil => exact ⟨rfl, .nil⟩
    | @cons k p ks ps hk _ =>
      simp only [List.flatten_nil, List.flatten_cons] at he
      exact absurd (List.append_eq_nil_iff.1 he.symm).1 (nonempty hk (hc' k (by simp)))
  | cons k ks ih =>
    intro ks' parts parts' s s' h h' hc hc' hw hr hr' he
    cases h with
    | @cons _ p _ ps hk hks =>
      cases h' with
      | nil =>
        simp only [List.flatten_nil, List.flatten_cons] at he
        exact absurd (List.append_eq_nil_iff.1 he).1 (nonempty hk (hc k (by simp)))
      | @cons k' p' ks' ps' hk' hks' =>
        simp only [readToks] at hr hr'
        cases h1 : readTok s k with
        | none => rw [h1] at hr; cases hr
        | some s1 =>
        cases h1' : readTok s' k' with
        | none => rw [h1'] at hr'; cases hr'
        | some s1' =>
        rw [h1] at hr
        rw [h1'] at hr'
        simp only [Option.bind_some] at hr hr'
        simp only [List.flatten_cons] at he
        have step : s1.want = s1'.want → p = p' → Alike k k' → p :: ps = p' :: ps' ∧ List.Forall₂ Alike (k :: ks) (k' :: ks') := by
          rintro hw' rfl hkk
          obtain ⟨rfl, h⟩ := ih hks hks' (fun k hk => hc k (by simp [hk])) (fun k hk => hc' k (by simp [hk])) hw' hr hr' (List.append_cancel_left he)
          exact ⟨rfl, .cons hkk h⟩
        have solidNe : ∀ {a : Tok Nat} {q : Str} {r r' : Str}, IsAtom a → ClearTok a → Spelled a q → q ++ r ≠ str% "(" ++ r' := by
          intro a q r r' ha hca hq e
          obtain ⟨c, t, rfl, -⟩ := atom_head ha hca hq
          have := atom_solid ha hca hq c (by simp)
          simp only [List.cons_append, List.cons.injEq, List.nil_append] at e
          exact this.2.1 e.1
        rcases readTok_want h1 with ⟨w, hk1⟩ | ⟨w, hk1⟩ <;> rcases readTok_want h1' with ⟨w', hk1'⟩ | ⟨w', hk1'⟩
        · rcases hk1 with ⟨ha, ww⟩ | ⟨rfl, ww⟩ <;> rcases hk1' with ⟨ha', ww'⟩ | ⟨rfl, ww'⟩
          · obtain ⟨rfl, -⟩ := cut_solid (atom_solid ha (hc k (by simp)) hk) (atom_solid ha' (hc' k' (by simp)) hk') (stops_next ww hr hks)
              (stops_next ww' hr' hks') he
            refine step (ww.trans ww'.symm) rfl ?_
            obtain ⟨c, r, rfl, h2⟩ := atom_head ha (hc k (by simp)) hk
            obtain ⟨c', r', e, h2'⟩ := atom_head ha' (hc' k' (by simp)) hk'
            cases e
            by_cases hn : NumTok k
            · exact .inr ⟨hn, h2'.1 (h2.2 hn)⟩
            · have hn' : ¬ NumTok k' := fun h => hn (h2.1 (h2'.2 h))
              obtain ⟨v, rfl⟩ := ha.resolve_left hn
              obtain ⟨v', rfl⟩ := ha'.resolve_left hn'
              cases hk; cases hk'; exact .inl rfl
          · cases hk'; exact absurd he (solidNe ha (hc k (by simp)) hk)
          · cases hk; exact absurd he.symm (solidNe ha' (hc' k' (by simp)) hk')
          · cases hk; cases hk'; exact step (ww.trans ww'.symm) rfl (.inl rfl)
        · rw [w, w'] at hw; cases hw
        · rw [w, w'] at hw; cases hw
        · rcases hk1 with ⟨rfl, ww⟩ | ⟨rfl, ww⟩ | ⟨rfl, ww⟩ <;> rcases hk1' with ⟨rfl, ww'⟩ | ⟨rfl, ww'⟩ | ⟨rfl, ww'⟩ <;> cases hk <;> cases hk' <;>
            first
            | exact step (ww.trans ww'.symm) rfl (.inl rfl)
            | (simp at he)

theorem readEquation_some {ks : List (Tok Nat)} {u : SimpleTerm} (h : readEquation ks = some u) : (readToks ⟨⟨none, none⟩, [], true⟩ ks).isSome := by
  unfold readEquation at h
  cases hr : readToks ⟨⟨none, none⟩, [], true⟩ ks with
  | none => rw [hr] at h; cases h
  | some s => rfl

/-- Numbers of both kinds made one kind. -/
def flatTok : Tok Nat → Tok Nat
  | .wt n => .num n
  | k => k

/-- The same for equations. -/
def flatTerm : SimpleTerm → SimpleTerm
  | .value n => .scalar n
  | .scalar n => .scalar n
  | .var v => .var v
  | .mul l r => .mul (flatTerm l) (flatTerm r)
  | .add l r => .add (flatTerm l) (flatTerm r)

theorem denote_flat (ρ : Str → Nat) (t : SimpleTerm) : denote ρ (flatTerm t) = denote ρ t := by
  induction t with
  | value => rfl
  | scalar => rfl
  | var => rfl
  | mul l r ihl ihr => simp only [flatTerm, denote, ihl, ihr]
  | add l r ihl ihr => simp only [flatTerm, denote, ihl, ihr]

/-- The same for levels. -/
def flatLevel (l : Level) : Level := ⟨l.sum.map flatTerm, l.prod.map flatTerm⟩

/-- The same for states of the reader. -/
def flatState (s : RState) : RState := ⟨flatLevel s.cur, s.outer.map flatLevel, s.want⟩

theorem flat_times (o : Option SimpleTerm) (x : SimpleTerm) : timesOpt (o.map flatTerm) (flatTerm x) = flatTerm (timesOpt o x) := by cases o <;> rfl
theorem flat_plus (o : Option SimpleTerm) (x : SimpleTerm) : plusOpt (o.map flatTerm) (flatTerm x) = flatTerm (plusOpt o x) := by cases o <;> rfl

theorem flat_operand (x : SimpleTerm) (s : RState) : operand (flatTerm x) (flatState s) = (operand x s).map flatState := by
  obtain ⟨⟨sm, pr⟩, o, w⟩ := s
  cases w
  · rfl
  · simp [operand, flatState, flatLevel, flat_times]

theorem flat_readTok (s : RState) (k : Tok Nat) : readTok (flatState s) (flatTok k) = (readTok s k).map flatState := by
  cases k with
  | num n => exact flat_operand (.scalar n) s
  | wt n => exact flat_operand (.value n) s
  | ident v => exact flat_operand (.var v) s
  | times => obtain ⟨⟨sm, pr⟩, o, w⟩ := s; cases w <;> rfl
  | plus =>
    obtain ⟨⟨sm, pr⟩, o, w⟩ := s
    cases w
    · cases pr
      · rfl
      · simp [readTok, flatState, flatLevel, flatTok, flat_plus]
    · rfl
  | lpar => obtain ⟨⟨sm, pr⟩, o, w⟩ := s; cases w <;> rfl
  | rpar =>
    obtain ⟨⟨sm, pr⟩, o, w⟩ := s
    cases w
    · cases pr
      · rfl
      · cases o with
        | nil => rfl
        | cons f o =>
          rename_i p
          show operand (plusOpt (sm.map flatTerm) (flatTerm p)) (flatState ⟨f, o, true⟩) = (operand (plusOpt sm p) ⟨f, o, true⟩).map flatState
          rw [flat_plus, flat_operand]
    · rfl

theorem flat_readToks (s : RState) (ks : List (Tok Nat)) : readToks (flatState s) (ks.map flatTok) = (readToks s ks).map flatState := by
  induction ks generalizing s with
  | nil => rfl
  | cons k ks ih =>
    simp only [List.map_cons, readToks, flat_readTok]
    cases readTok s k with
    | none => rfl
    | some s' => exact ih s'

theorem flat_readEquation (ks : List (Tok Nat)) : readEquation (ks.map flatTok) = (readEquation ks).map flatTerm := by
  unfold readEquation
  rw [show (⟨⟨none, none⟩, [], true⟩ : RState) = flatState ⟨⟨none, none⟩, [], true⟩ from rfl, flat_readToks]
  rw [show flatState ⟨⟨none, none⟩, [], true⟩ = (⟨⟨none, none⟩, [], true⟩ : RState) from rfl]
  cases readToks ⟨⟨none, none⟩, [], true⟩ ks with
  | none => rfl
  | some s =>
    obtain ⟨⟨sm, pr⟩, o, w⟩ := s
    cases w
    · cases pr
      · rfl
      · cases o
        · simp [flatState, flatLevel, flat_plus]
        · rfl
    · rfl

/-- Small numbers are spelled out. -/
theorem small_number {n n' : Nat} {s : Str} (hn : n < 1000) (hn' : n' < 1000) (h : GoodRendering scalarUnits n s) (h' : GoodRendering scalarUnits n' s) :
    n = n' := by
  have one : ∀ {n : Nat} {s : Str}, n < 1000 → GoodRendering scalarUnits n s → ∃ name, readQuantity s = some ((n : ℚ), name) := by
    rintro n s hn ⟨q, name, u, h1, h2, h3, -, h5, -⟩
    have hu : u = 1 := by
      rcases h3 with h3 | h3
      · simp only [scalarUnits, List.mem_cons, List.not_mem_nil, or_false, Prod.mk.injEq] at h2
        rcases h2 with ⟨-, rfl⟩ | ⟨-, rfl⟩ | ⟨-, rfl⟩ | ⟨-, rfl⟩ | ⟨-, rfl⟩ <;> omega
      · exact h3
    exact ⟨name, by rw [h1, h5 hu]⟩
  obtain ⟨_, h1⟩ := one hn h
  obtain ⟨_, h2⟩ := one hn' h'
  rw [h1] at h2
  simp only [Option.some.injEq, Prod.mk.injEq, Nat.cast_inj] at h2
  exact h2.1

/-- A number below a bound. -/
def BelowTok (m : Nat) : Tok Nat → Prop
  | .num n => n < m
  | .wt n => n < m
  | _ => True

theorem flat_alike {ks ks' : List (Tok Nat)} {parts : List Str} (h : List.Forall₂ Spelled ks parts) (h' : List.Forall₂ Spelled ks' parts)
    (hs : ∀ k ∈ ks, BelowTok 1000 k) (hs' : ∀ k ∈ ks', BelowTok 1000 k) (ha : List.Forall₂ Alike ks ks') : ks.map flatTok = ks'.map flatTok := by
  induction ha generalizing parts with
  | nil => rfl
  | @cons k k' ks ks' hk _ ih =>
    cases h with
    | @cons _ p _ ps hp hps =>
    cases h' with
    | @cons _ _ _ _ hp' hps' =>
      rw [List.map_cons, List.map_cons, ih hps hps' (fun k hk => hs k (by simp [hk])) (fun k hk => hs' k (by simp [hk]))]
      congr 1
      have b := hs k (by simp)
      have b' := hs' k' (by simp)
      have num : ∀ {k : Tok Nat}, NumTok k → BelowTok 1000 k → Spelled k p → ∃ n, flatTok k = .num n ∧ n < 1000 ∧ GoodRendering scalarUnits n p := by
        rintro k (⟨n, rfl⟩ | ⟨n, rfl⟩) b h
        · cases h with | num g => exact ⟨n, rfl, b, g (lt_trans b (by norm_num))⟩
        · cases h with | wt g => exact ⟨n, rfl, b, g (lt_trans b (by norm_num))⟩
      rcases hk with rfl | ⟨h1, h2⟩
      · rfl
      · obtain ⟨n, e, hn, g⟩ := num h1 b hp
        obtain ⟨n', e', hn', g'⟩ := num h2 b' hp'
        rw [e, e', small_number hn hn' g g']

theorem below_toks {m : Nat} {t : SimpleTerm} {hb : Bool} {toks : List (Tok Nat)} (h : Term.maybeFmt hb t = some toks) (hm : NumbersBelow m t) :
    ∀ k ∈ toks, BelowTok m k := by
  induction t generalizing hb toks with
  | value n =>
    unfold Term.maybeFmt at h; cases h
    intro k hk
    rw [List.mem_singleton.1 hk]
    exact hm n (.inl .refl)
  | scalar n =>
    unfold Term.maybeFmt at h; cases h
    intro k hk
    rw [List.mem_singleton.1 hk]
    exact hm n (.inr .refl)
  | var v =>
    unfold Term.maybeFmt at h; cases h
    intro k hk
    rw [List.mem_singleton.1 hk]
    trivial
  | mul l r ihl ihr =>
    have hl : NumbersBelow m l := fun n hn => hm n (hn.imp .mulL .mulL)
    have hr : NumbersBelow m r := fun n hn => hm n (hn.imp .mulR .mulR)
    unfold Term.maybeFmt at h
    split at h
    · exact ihr h hr
    · split at h
      · exact ihl h hl
      · split at h
        · cases h
        · split at h
          · rename_i h1 h2
            cases h
            intro k hk
            simp only [List.mem_append, List.mem_singleton] at hk
            rcases hk with (hk | rfl) | hk
            · exact ihl h1 hl k hk
            · trivial
            · exact ihr h2 hr k hk
          · rename_i h1 h2; cases h; exact ihl h1 hl
          · rename_i h1 h2; cases h; exact ihr h2 hr
          · cases h
  | add l r ihl ihr =>
    have hl : NumbersBelow m l := fun n hn => hm n (hn.imp .addL .addL)
    have hr : NumbersBelow m r := fun n hn => hm n (hn.imp .addR .addR)
    unfold Term.maybeFmt at h
    split at h
    · cases h
    · split at h
      · exact ihr h hr
      · split at h
        · exact ihl h hl
        · split at h
          · split at h
            · rename_i h1 h2
              cases h
              intro k hk
              simp only [List.mem_append, List.mem_singleton] at hk
              rcases hk with (hk | rfl) | hk
              · exact ihl h1 hl k hk
              · trivial
              · exact ihr h2 hr k hk
            · rename_i h1 h2; cases h; exact ihl h1 hl
            · rename_i h1 h2; cases h; exact ihr h2 hr
            · cases h
          · split at h
            · rename_i h1 h2
              cases h
              intro k hk
              simp only [List.mem_append, List.mem_cons, List.not_mem_nil, or_false] at hk
              rcases hk with (((rfl | hk) | rfl) | hk) | rfl
              · trivial
              · exact ihl h1 hl k hk
              · trivial
              · exact ihr h2 hr k hk
              · trivial
            · rename_i h1 h2; cases h; exact ihl h1 hl
            · rename_i h1 h2; cases h; exact ihr h2 hr
            · cases h

theorem display_spelled (t : SimpleTerm) :
    List.Forall₂ Spelled (Term.fmtTokens true t) ((Term.fmtTokens true t).map (Term.renderTok Dimension.fmtScalar)) := by
  rw [List.forall₂_map_right_iff]
  refine List.forall₂_same.2 fun k _ => ?_
  cases k with
  | num n => exact .num (C13_fmt_scalar n)
  | wt n => exact .wt (C13_fmt_scalar n)
  | ident v => exact .ident v
  | plus => exact .plus
  | times => exact .times
  | lpar => exact .lpar
  | rpar => exact .rpar

theorem display_clear {m : Nat} (h0 : 0 < m) {t : SimpleTerm} (hv : ∀ v, Occurs v t → WordVar v) (hm : NumbersBelow m t) :
    ∀ k ∈ Term.fmtTokens true t, BelowTok m k ∧ (m ≤ 2 ^ 128 → ClearTok k) := by
  intro k hk
  unfold Term.fmtTokens at hk
  cases h : Term.maybeFmt true t with
  | none =>
    rw [h] at hk
    rw [List.mem_singleton.1 hk]
    exact ⟨h0, fun _ => by show (0 : Nat) < 2 ^ 128; norm_num⟩
  | some toks =>
    rw [h] at hk
    have hb := below_toks h hm k hk
    refine ⟨hb, fun hle => ?_⟩
    cases k with
    | num n => exact lt_of_lt_of_le hb hle
    | wt n => exact lt_of_lt_of_le hb hle
    | ident v => exact hv v (ident_occurs h v hk)
    | _ => trivial

/-! #### Abbreviated numbers -/

theorem near_number {n n' : Nat} {s : Str} (h : GoodRendering scalarUnits n s) (h' : GoodRendering scalarUnits n' s) : 50 * n ≤ 51 * n' := by
  obtain ⟨q, name, u, h1, h2, h3, -, h5, h6⟩ := h
  obtain ⟨q', name', u', h1', h2', h3', -, h5', h6'⟩ := h'
  rw [h1] at h1'
  simp only [Option.some.injEq, Prod.mk.injEq] at h1'
  obtain ⟨rfl, rfl⟩ := h1'
  have hu : u = u' := by
    simp only [scalarUnits, List.mem_cons, List.not_mem_nil, or_false, Prod.mk.injEq] at h2 h2'
    rcases h2 with ⟨rfl, rfl⟩ | ⟨rfl, rfl⟩ | ⟨rfl, rfl⟩ | ⟨rfl, rfl⟩ | ⟨rfl, rfl⟩ <;>
      rcases h2' with ⟨e, rfl⟩ | ⟨e, rfl⟩ | ⟨e, rfl⟩ | ⟨e, rfl⟩ | ⟨e, rfl⟩ <;> first | rfl | (revert e; decide)
  subst hu
  by_cases h : u = 1
  · have e : (n : ℚ) = n' := by rw [← h5 h, ← h5' h]
    have e : n = n' := by exact_mod_cast e
    omega
  · have hn := h3'.resolve_right h
    have hpos : 0 < u := by
      simp only [scalarUnits, List.mem_cons, List.not_mem_nil, or_false, Prod.mk.injEq] at h2
      rcases h2 with ⟨-, rfl⟩ | ⟨-, rfl⟩ | ⟨-, rfl⟩ | ⟨-, rfl⟩ | ⟨-, rfl⟩ <;> norm_num
    have a := abs_le.1 (h6 h).2
    have b := abs_le.1 (h6' h).2
    have hposq : (0 : ℚ) < u := by exact_mod_cast hpos
    have one : (1 : ℚ) ≤ (n' : ℚ) / u := by rw [le_div_iff₀ hposq]; simpa using (by exact_mod_cast hn : (u : ℚ) ≤ n')
    have nonneg : (0 : ℚ) ≤ (n : ℚ) / u := by positivity
    obtain ⟨a1, a2⟩ := a
    obtain ⟨b1, b2⟩ := b
    have key : 50 * ((n : ℚ) / u) ≤ 51 * ((n' : ℚ) / u) := by
      generalize (n : ℚ) / u = x at *
      generalize (n' : ℚ) / u = y at *
      norm_num at a1 b2 ⊢
      linarith
    rw [← mul_div_assoc, ← mul_div_assoc, div_le_div_iff_of_pos_right hposq] at key
    exact_mod_cast key

/-- Tokens that may be spelled alike. -/
inductive NearTok : Tok Nat → Tok Nat → Prop
  | same (k : Tok Nat) : ¬ NumTok k → NearTok k k
  | number {k k' : Tok Nat} {n n' : Nat} : flatTok k = .num n → flatTok k' = .num n' → 50 * n ≤ 51 * n' → 50 * n' ≤ 51 * n → NumTok k → NumTok k' → NearTok k k'

theorem near_alike {ks ks' : List (Tok Nat)} {parts : List Str} (h : List.Forall₂ Spelled ks parts) (h' : List.Forall₂ Spelled ks' parts)
    (hs : ∀ k ∈ ks, ClearTok k) (hs' : ∀ k ∈ ks', ClearTok k) (ha : List.Forall₂ Alike ks ks') : List.Forall₂ NearTok ks ks' := by
  induction ha generalizing parts with
  | nil => exact .nil
  | @cons k k' ks ks' hk _ ih =>
    cases h with
    | @cons _ p _ ps hp hps =>
    cases h' with
    | @cons _ _ _ _ hp' hps' =>
      refine .cons ?_ (ih hps hps' (fun k hk => hs k (by simp [hk])) (fun k hk => hs' k (by simp [hk])))
      have b := hs k (by simp)
      have b' := hs' k' (by simp)
      have num : ∀ {k : Tok Nat}, NumTok k → ClearTok k → Spelled k p → ∃ n, flatTok k = .num n ∧ GoodRendering scalarUnits n p := by
        rintro k (⟨n, rfl⟩ | ⟨n, rfl⟩) b h
        · cases h with | num g => exact ⟨n, rfl, g b⟩
        · cases h with | wt g => exact ⟨n, rfl, g b⟩
      have both : NumTok k → NumTok k' → NearTok k k' := by
        intro h1 h2
        obtain ⟨n, e, g⟩ := num h1 b hp
        obtain ⟨n', e', g'⟩ := num h2 b' hp'
        exact .number e e' (near_number g g') (near_number g' g) h1 h2
      rcases hk with rfl | ⟨h1, h2⟩
      · by_cases hn : NumTok k
        · exact both hn hn
        · exact .same k hn
      · exact both h1 h2

/-- Levels of the two readers. -/
def NearLevel (l l' : Level) : Prop := Option.Rel Near l.sum l'.sum ∧ Option.Rel Near l.prod l'.prod

/-- States of the two readers. -/
def NearState (s s' : RState) : Prop := NearLevel s.cur s'.cur ∧ List.Forall₂ NearLevel s.outer s'.outer ∧ s.want = s'.want

theorem near_times {o o' : Option SimpleTerm} {x x' : SimpleTerm} (h : Option.Rel Near o o') (hx : Near x x') : Near (timesOpt o x) (timesOpt o' x') := by
  cases h with
  | none => exact hx
  | some h => exact .mul h hx

theorem near_plus {o o' : Option SimpleTerm} {x x' : SimpleTerm} (h : Option.Rel Near o o') (hx : Near x x') : Near (plusOpt o x) (plusOpt o' x') := by
  cases h with
  | none => exact hx
  | some h => exact .add h hx

theorem near_operand {x x' : SimpleTerm} {s s' t : RState} (hx : Near x x') (hs : NearState s s') (h : operand x s = some t) :
    ∃ t', operand x' s' = some t' ∧ NearState t t' := by
  obtain ⟨⟨h1, h2⟩, h3, h4⟩ := hs
  unfold operand at h ⊢
  split at h
  · rename_i hw
    cases h
    rw [if_pos (h4 ▸ hw)]
    exact ⟨_, rfl, ⟨h1, .some (near_times h2 hx)⟩, h3, rfl⟩
  · cases h

theorem near_readTok {s s' t : RState} {k k' : Tok Nat} (hk : NearTok k k') (hs : NearState s s') (h : readTok s k = some t) :
    ∃ t', readTok s' k' = some t' ∧ NearState t t' := by
  cases hk with
  | @number _ n0 n0' e e' h1 h2 n1 n2 =>
    rcases n1 with ⟨n, rfl⟩ | ⟨n, rfl⟩ <;> rcases n2 with ⟨n', rfl⟩ | ⟨n', rfl⟩ <;> cases e <;> cases e'
    · exact near_operand (x := .scalar n0) (x' := .scalar n0') (.number (n := n0) (n' := n0') rfl rfl h1 h2) hs h
    · exact near_operand (x := .scalar n0) (x' := .value n0') (.number (n := n0) (n' := n0') rfl rfl h1 h2) hs h
    · exact near_operand (x := .value n0) (x' := .scalar n0') (.number (n := n0) (n' := n0') rfl rfl h1 h2) hs h
    · exact near_operand (x := .value n0) (x' := .value n0') (.number (n := n0) (n' := n0') rfl rfl h1 h2) hs h
  | same hn =>
    cases k with
    | num n => exact absurd (.inl ⟨n, rfl⟩) hn
    | wt n => exact absurd (.inr ⟨n, rfl⟩) hn
    | ident v => exact near_operand (.var v) hs h
    | times =>
      obtain ⟨h1, h3, h4⟩ := hs
      simp only [readTok] at h ⊢
      rw [← h4]
      split at h
      · cases h
      · rename_i hw
        cases h
        rw [if_neg hw]
        exact ⟨_, rfl, h1, h3, rfl⟩
    | plus =>
      obtain ⟨⟨h1, h2⟩, h3, h4⟩ := hs
      simp only [readTok] at h ⊢
      rw [← h4]
      split at h
      · cases h
      · rename_i hw
        rw [if_neg hw]
        generalize s.cur.prod = o at h h2
        generalize s'.cur.prod = o' at h2 ⊢
        cases h2 with
        | none => cases h
        | some h2 => cases h; exact ⟨_, rfl, ⟨.some (near_plus h1 h2), .none⟩, h3, rfl⟩
    | lpar =>
      obtain ⟨h1, h3, h4⟩ := hs
      simp only [readTok] at h ⊢
      rw [← h4]
      split at h
      · rename_i hw
        cases h
        rw [if_pos hw]
        exact ⟨_, rfl, ⟨.none, .none⟩, .cons h1 h3, rfl⟩
      · cases h
    | rpar =>
      obtain ⟨⟨h1, h2⟩, h3, h4⟩ := hs
      simp only [readTok] at h ⊢
      rw [← h4]
      split at h
      · cases h
      · rename_i hw
        rw [if_neg hw]
        generalize s.cur.prod = o at h h2
        generalize s'.cur.prod = o' at h2 ⊢
        generalize s.outer = c at h h3
        generalize s'.outer = c' at h3 ⊢
        cases h2 with
        | none => cases h
        | some h2 =>
          cases h3 with
          | nil => cases h
          | @cons f f' o o' h3 h5 =>
            exact near_operand (s := ⟨f, o, true⟩) (s' := ⟨f', o', true⟩) (near_plus h1 h2) ⟨h3, h5, rfl⟩ h

theorem near_readToks {ks ks' : List (Tok Nat)} (hk : List.Forall₂ NearTok ks ks') : ∀ {s s' t : RState}, NearState s s' → readToks s ks = some t →
    ∃ t', readToks s' ks' = some t' ∧ NearState t t' := by
  induction hk with
  | nil => intro s s' t hs h; cases h; exact ⟨s', rfl, hs⟩
  | @cons k k' ks ks' hk _ ih =>
    intro s s' t hs h
    simp only [readToks] at h ⊢
    cases h1 : readTok s k with
    | none => rw [h1] at h; cases h
    | some s1 =>
      rw [h1] at h
      obtain ⟨s1', e, hs1⟩ := near_readTok hk hs h1
      rw [e]
      exact ih hs1 h

theorem near_readEquation {ks ks' : List (Tok Nat)} (hk : List.Forall₂ NearTok ks ks') {u u' : SimpleTerm} (h : readEquation ks = some u)
    (h' : readEquation ks' = some u') : Near u u' := by
  unfold readEquation at h h'
  cases hr : readToks ⟨⟨none, none⟩, [], true⟩ ks with
  | none => rw [hr] at h; cases h
  | some s =>
    obtain ⟨s', hr', ⟨h1, h2⟩, h3, h4⟩ := near_readToks (s' := ⟨⟨none, none⟩, [], true⟩) hk ⟨⟨.none, .none⟩, .nil, rfl⟩ hr
    rw [hr] at h
    rw [hr'] at h'
    simp only [Option.bind_some] at h h'
    rw [← h4] at h'
    split at h
    · cases h
    · rename_i hw
      rw [if_neg hw] at h'
      generalize s.cur.prod = o at h h2
      generalize s'.cur.prod = o' at h' h2
      generalize s.outer = c at h h3
      generalize s'.outer = c' at h' h3
      cases h2 with
      | none => cases h
      | some h2 =>
        cases h3 with
        | nil => cases h; cases h'; exact near_plus h1 h2
        | cons _ _ => cases h

theorem near_symm {t t' : SimpleTerm} (h : Near t t') : Near t' t := by
  induction h with
  | number h1 h2 h3 h4 => exact .number h2 h1 h4 h3
  | var v => exact .var v
  | mul _ _ h1 h2 => exact .mul h1 h2
  | add _ _ h1 h2 => exact .add h1 h2

theorem scale_up {d e x y : Nat} (hde : d ≤ e) (h : 50 ^ d * x ≤ 51 ^ d * y) : 50 ^ e * x ≤ 51 ^ e * y := by
  obtain ⟨k, rfl⟩ := Nat.exists_eq_add_of_le hde
  have hk : (50 : Nat) ^ k ≤ 51 ^ k := Nat.pow_le_pow_left (by norm_num) k
  calc 50 ^ (d + k) * x = 50 ^ k * (50 ^ d * x) := by ring
    _ ≤ 51 ^ k * (51 ^ d * y) := Nat.mul_le_mul hk h
    _ = 51 ^ (d + k) * y := by ring

end EquationText

open EquationText

/-- Near equations have near values: the factor is at most `1.02` for each number in a product. -/
theorem near_value {t t' : SimpleTerm} (h : Near t t') (ρ : Str → Nat) : 50 ^ degree t * denote ρ t ≤ 51 ^ degree t * denote ρ t' := by
  induction h with
  | @number t t' n n' h1 h2 h3 h4 =>
    cases t <;> simp only [isLit] at h1 <;> cases t' <;> simp only [isLit] at h2 <;> subst h1 <;> subst h2 <;> simpa [degree, denote] using h3
  | var v => simp [degree]
  | @mul l r l' r' _ _ h1 h2 =>
    simp only [degree, denote]
    calc 50 ^ (degree l + degree r) * (denote ρ l * denote ρ r) = (50 ^ degree l * denote ρ l) * (50 ^ degree r * denote ρ r) := by ring
      _ ≤ (51 ^ degree l * denote ρ l') * (51 ^ degree r * denote ρ r') := Nat.mul_le_mul h1 h2
      _ = 51 ^ (degree l + degree r) * (denote ρ l' * denote ρ r') := by ring
  | @add l r l' r' _ _ h1 h2 =>
    simp only [degree, denote, Nat.mul_add]
    exact Nat.add_le_add (scale_up (le_max_left _ _) h1) (scale_up (le_max_right _ _) h2)

/-! ### C12 -/

/-- C12: what is printed is a text of the equation, character by character. -/
theorem C12_text (t : SimpleTerm) : EquationText t (Term.display Dimension.fmtScalar t) := equationText_display t

/-- C12: the text of an equation can be cut into tokens in one way only: two equations with the same text have the same tokens, except that abbreviated numbers
may differ. -/
theorem C12_unique {ks ks' : List (Tok Nat)} {parts parts' : List Str} {u u' : SimpleTerm} (h : List.Forall₂ Spelled ks parts)
    (h' : List.Forall₂ Spelled ks' parts') (hc : ∀ k ∈ ks, ClearTok k) (hc' : ∀ k ∈ ks', ClearTok k) (hr : readEquation ks = some u)
    (hr' : readEquation ks' = some u') (he : parts.flatten = parts'.flatten) :
    parts = parts' ∧ List.Forall₂ (fun k k' => k = k' ∨ (NumTok k ∧ NumTok k')) ks ks' :=
  unique_from h h' hc hc' rfl (readEquation_some hr) (readEquation_some hr') he

/-- C12: whoever reads the printed text as an equation reads what was printed, up to numbers with the same abbreviation. -/
theorem C12_read {t : SimpleTerm} (hv : ∀ v, Occurs v t → WordVar v) (hn : NumbersBelow (2 ^ 128) t) {ks : List (Tok Nat)} {parts : List Str} {u : SimpleTerm}
    (h : List.Forall₂ Spelled ks parts) (hc : ∀ k ∈ ks, ClearTok k) (hr : readEquation ks = some u)
    (he : Term.display Dimension.fmtScalar t = parts.flatten) : List.Forall₂ (fun k k' => k = k' ∨ (NumTok k ∧ NumTok k')) (Term.fmtTokens true t) ks := by
  obtain ⟨u', hr'⟩ := C12_always_readable Dimension.fmtScalar t
  refine (C12_unique (display_spelled t) h (fun k hk => (display_clear (by norm_num) hv hn k hk).2 le_rfl) hc hr' hr ?_).2
  rw [← he, Term.display, List.flatMap_def]

/-- C12: two equations that are printed alike have the same value for all values of the variables, if all their numbers are below a thousand and so not
abbreviated. -/
theorem C12_alike {t t' : SimpleTerm} (hp : Printable true t) (hp' : Printable true t') (hv : ∀ v, Occurs v t → WordVar v)
    (hv' : ∀ v, Occurs v t' → WordVar v) (hn : NumbersBelow 1000 t) (hn' : NumbersBelow 1000 t')
    (he : Term.display Dimension.fmtScalar t = Term.display Dimension.fmtScalar t') (ρ : Str → Nat) : denote ρ t = denote ρ t' := by
  obtain ⟨u, hr, hu⟩ := C12_display_faithful Dimension.fmtScalar t hp
  obtain ⟨u', hr', hu'⟩ := C12_display_faithful Dimension.fmtScalar t' hp'
  have c := display_clear (by norm_num) hv hn
  have c' := display_clear (by norm_num) hv' hn'
  have hs := display_spelled t
  have hs' := display_spelled t'
  obtain ⟨h1, h2⟩ := C12_unique hs hs' (fun k hk => (c k hk).2 (by norm_num)) (fun k hk => (c' k hk).2 (by norm_num)) hr hr'
    (by rw [Term.display, Term.display, List.flatMap_def, List.flatMap_def] at he; exact he)
  rw [← h1] at hs'
  have h3 := flat_alike hs hs' (fun k hk => (c k hk).1) (fun k hk => (c' k hk).1) h2
  have h4 := flat_readEquation (Term.fmtTokens true t)
  have h5 := flat_readEquation (Term.fmtTokens true t')
  have e1 : readEquation (Term.fmtTokens true t) = some u := hr
  have e2 : readEquation (Term.fmtTokens true t') = some u' := hr'
  rw [h3, h5, e1, e2] at h4
  simp only [Option.map_some, Option.some.injEq] at h4
  rw [← hu ρ, ← hu' ρ, ← denote_flat ρ u, ← h4, denote_flat]

/-- C12: two equations that are printed alike, whatever their numbers, have the values of two equations of the same form whose numbers differ by two percent at
most; so their values differ by at most two percent for each of the numbers that are multiplied with each other. -/
theorem C12_near {t t' : SimpleTerm} (hp : Printable true t) (hp' : Printable true t') (hv : ∀ v, Occurs v t → WordVar v)
    (hv' : ∀ v, Occurs v t' → WordVar v) (hn : NumbersBelow (2 ^ 128) t) (hn' : NumbersBelow (2 ^ 128) t')
    (he : Term.display Dimension.fmtScalar t = Term.display Dimension.fmtScalar t') :
    ∃ u u', Near u u' ∧ (∀ ρ, denote ρ u = denote ρ t) ∧ (∀ ρ, denote ρ u' = denote ρ t') ∧
      ∀ ρ, 50 ^ degree u * denote ρ t ≤ 51 ^ degree u * denote ρ t' := by
  obtain ⟨u, hr, hu⟩ := C12_display_faithful Dimension.fmtScalar t hp
  obtain ⟨u', hr', hu'⟩ := C12_display_faithful Dimension.fmtScalar t' hp'
  have c := fun k hk => (display_clear (by norm_num) hv hn k hk).2 le_rfl
  have c' := fun k hk => (display_clear (by norm_num) hv' hn' k hk).2 le_rfl
  have hs := display_spelled t
  have hs' := display_spelled t'
  obtain ⟨h1, h2⟩ := C12_unique hs hs' c c' hr hr' (by rw [Term.display, Term.display, List.flatMap_def, List.flatMap_def] at he; exact he)
  rw [← h1] at hs'
  have h := near_readEquation (near_alike hs hs' c c' h2) hr hr'
  refine ⟨u, u', h, hu, hu', fun ρ => ?_⟩
  rw [← hu ρ, ← hu' ρ]
  exact near_value h ρ

/-- C12, and why the bound is needed: abbreviated numbers are printed alike although the equations differ. -/
theorem C12_abbreviated : Term.display Dimension.fmtScalar (.mul (.scalar 12345) (.var (str% "n")) : SimpleTerm)
      = Term.display Dimension.fmtScalar (.mul (.scalar 12346) (.var (str% "n")) : SimpleTerm) ∧
    denote (fun _ => 1) (.mul (.scalar 12345) (.var (str% "n"))) ≠ denote (fun _ => 1) (.mul (.scalar 12346) (.var (str% "n"))) := by decide +kernel

/-- `1 * n + (0 + 7)` and `n + 7` are printed alike. -/
example : let t : SimpleTerm := .add (.mul (.scalar 1) (.var (str% "n"))) (.add (.value 0) (.value 7))
    let t' : SimpleTerm := .add (.var (str% "n")) (.scalar 7)
    Term.display Dimension.fmtScalar t = str% "n + 7" ∧ Term.display Dimension.fmtScalar t' = str% "n + 7" ∧ denote (fun _ => 5) t = 12 := by decide +kernel

/-- With `12345` and `12346` for the numbers: the factor is `1.02` at most. -/
example : Near (.mul (.scalar 12345) (.var (str% "n"))) (.mul (.scalar 12346) (.var (str% "n"))) ∧
    degree (.mul (.scalar 12345) (.var (str% "n"))) = 1 :=
  ⟨.mul (.number (n := 12345) (n' := 12346) rfl rfl (by norm_num) (by norm_num)) (.var _), rfl⟩

/-- The hypotheses hold for `n + 7`. -/
example : (∀ v, Occurs v (.add (.var (str% "n")) (.scalar 7) : SimpleTerm) → WordVar v) ∧ NumbersBelow 1000 (.add (.var (str% "n")) (.scalar 7)) := by
  constructor
  · intro v h
    cases h with
    | addL h => cases h; exact ⟨by decide, 'n', [], rfl, rfl⟩
    | addR h => cases h
  · rintro n (h | h)
    · cases h with
      | addL h => cases h
      | addR h => cases h
    · cases h with
      | addL h => cases h
      | addR h => cases h; norm_num

end Swc
