/-
C12, C14: printing of equations.
-/
import Verif.Props.Eval
import Verif.Spec.Reader

namespace Swc

open Std Spec Term

/-- `u128` as a weight value (`core/src/traits.rs:11-27`): zero 0, one 1.  The characters of a number are supplied by a parameter here
(`fmtN`); the instance with the real formatter is in `Model/Format.lean`. -/
@[reducible] def natWV (fmtN : Nat → Str) : WeightValue Nat := ⟨0, 1, fmtN⟩

section
variable (fmtN : Nat → Str)

theorem isConstZero_iff (t : SimpleTerm) : (@isConstZero Nat _ (natWV fmtN) t = true) ↔ isLit 0 t := by
  cases t <;> simp [isConstZero, isLit, WeightValue.zero]

theorem isConstOne_iff (t : SimpleTerm) : (@isConstOne Nat _ (natWV fmtN) t = true) ↔ isLit 1 t := by
  cases t <;> simp [isConstOne, isLit, WeightValue.one]

theorem isConstZero_false (t : SimpleTerm) : (@isConstZero Nat _ (natWV fmtN) t = false) ↔ ¬ isLit 0 t := by
  rw [← isConstZero_iff fmtN]; simp

theorem isConstOne_false (t : SimpleTerm) : (@isConstOne Nat _ (natWV fmtN) t = false) ↔ ¬ isLit 1 t := by
  rw [← isConstOne_iff fmtN]; simp

theorem denote_lit {t : SimpleTerm} {n : Nat} (h : isLit n t) (ρ : Str → Nat) : denote ρ t = n := by
  cases t <;> simp_all [isLit, denote]

theorem maybeFmt_none_null (hb : Bool) (t : SimpleTerm) (h : @maybeFmt Nat _ (natWV fmtN) hb t = none) : Null t := by
  induction t generalizing hb with
  | value n => cases hb <;> simp [maybeFmt] at h
  | scalar n => cases hb <;> simp [maybeFmt] at h
  | var x => cases hb <;> simp [maybeFmt] at h
  | mul l r ihl ihr =>
    intro ρ
    simp only [denote]
    unfold maybeFmt at h
    split at h
    · rw [ihr _ h ρ]; simp
    · split at h
      · rw [ihl _ h ρ]; simp
      · split at h
        · rename_i h0
          rcases Bool.or_eq_true _ _ ▸ h0 with h0 | h0
          · rw [denote_lit ((isConstZero_iff fmtN _).1 h0)]; simp
          · rw [denote_lit ((isConstZero_iff fmtN _).1 h0)]; simp
        · split at h
          · cases h
          · cases h
          · cases h
          · rename_i h1 h2
            rw [ihl _ h1 ρ]; simp
  | add l r ihl ihr =>
    intro ρ
    simp only [denote]
    unfold maybeFmt at h
    split at h
    · rename_i h0
      rcases Bool.and_eq_true _ _ ▸ h0 with ⟨h0, h1⟩
      rw [denote_lit ((isConstZero_iff fmtN _).1 h0), denote_lit ((isConstZero_iff fmtN _).1 h1)]
    · split at h
      · rename_i h0
        rw [denote_lit ((isConstZero_iff fmtN _).1 h0), ihr _ h ρ]
      · split at h
        · rename_i h0
          rw [denote_lit ((isConstZero_iff fmtN _).1 h0), ihl _ h ρ]
        · split at h
          · split at h
            · cases h
            · cases h
            · cases h
            · rename_i h1 h2
              rw [ihl _ h1 ρ, ihr _ h2 ρ]
          · split at h
            · cases h
            · cases h
            · cases h
            · rename_i h1 h2
              rw [ihl _ h1 ρ, ihr _ h2 ρ]

theorem readToks_append (s : RState) (a b : List (Tok Nat)) :
    readToks s (a ++ b) = (readToks s a).bind fun s' => readToks s' b := by
  induction a generalizing s with
  | nil => rfl
  | cons k a ih =>
    simp only [List.cons_append, readToks]
    cases readTok s k with
    | none => rfl
    | some s' => exact ih s'

/-- Value of the finished summands. -/
def sumV (ρ : Str → Nat) (o : Option SimpleTerm) : Nat := (o.map (denote ρ)).getD 0
/-- Value of the current factors. -/
def prodV (ρ : Str → Nat) (o : Option SimpleTerm) : Nat := (o.map (denote ρ)).getD 1

theorem denote_timesOpt (ρ : Str → Nat) (p : Option SimpleTerm) (x : SimpleTerm) :
    denote ρ (timesOpt p x) = prodV ρ p * denote ρ x := by
  cases p <;> simp [timesOpt, prodV, denote]

theorem denote_plusOpt (ρ : Str → Nat) (p : Option SimpleTerm) (x : SimpleTerm) :
    denote ρ (plusOpt p x) = sumV ρ p + denote ρ x := by
  cases p <;> simp [plusOpt, sumV, denote]

/-- Reading `ks` in factor position multiplies the current product by the value of `t`. -/
def ReadsFactor (ks : List (Tok Nat)) (t : SimpleTerm) : Prop :=
  ∀ cur outer, ∃ p, readToks ⟨cur, outer, true⟩ ks = some ⟨⟨cur.sum, some p⟩, outer, false⟩
    ∧ ∀ ρ, denote ρ p = prodV ρ cur.prod * denote ρ t

/-- Reading `ks` in summand position adds the value of `t` to the current sum. -/
def ReadsSum (ks : List (Tok Nat)) (t : SimpleTerm) : Prop :=
  ∀ s outer, ∃ s' p, readToks ⟨⟨s, none⟩, outer, true⟩ ks = some ⟨⟨s', some p⟩, outer, false⟩
    ∧ ∀ ρ, sumV ρ s' + denote ρ p = sumV ρ s + denote ρ t

theorem ReadsFactor.toSum {ks : List (Tok Nat)} {t : SimpleTerm} (h : ReadsFactor ks t) : ReadsSum ks t := by
  intro s outer
  obtain ⟨p, hp, hv⟩ := h ⟨s, none⟩ outer
  refine ⟨s, p, hp, fun ρ => ?_⟩
  rw [hv ρ]; simp [prodV]

theorem ReadsFactor.congr {ks : List (Tok Nat)} {t u : SimpleTerm} (h : ReadsFactor ks t) (e : ∀ ρ, denote ρ t = denote ρ u) :
    ReadsFactor ks u := by
  intro cur outer
  obtain ⟨p, hp, hv⟩ := h cur outer
  exact ⟨p, hp, fun ρ => by rw [hv ρ, e ρ]⟩

theorem ReadsSum.congr {ks : List (Tok Nat)} {t u : SimpleTerm} (h : ReadsSum ks t) (e : ∀ ρ, denote ρ t = denote ρ u) :
    ReadsSum ks u := by
  intro cur outer
  obtain ⟨s', p, hp, hv⟩ := h cur outer
  exact ⟨s', p, hp, fun ρ => by rw [hv ρ, e ρ]⟩

theorem ReadsFactor.mul {a c : List (Tok Nat)} {l r : SimpleTerm} (ha : ReadsFactor a l) (hc : ReadsFactor c r) :
    ReadsFactor (a ++ [.times] ++ c) (.mul l r) := by
  intro cur outer
  obtain ⟨p, hp, hv⟩ := ha cur outer
  obtain ⟨q, hq, hw⟩ := hc ⟨cur.sum, some p⟩ outer
  refine ⟨q, ?_, fun ρ => ?_⟩
  · rw [readToks_append, readToks_append, hp]
    exact hq
  · rw [hw ρ]
    simp only [prodV, Option.map_some, Option.getD_some, denote]
    rw [hv ρ, Nat.mul_assoc]
    simp only [prodV]

theorem ReadsSum.add {a c : List (Tok Nat)} {l r : SimpleTerm} (ha : ReadsSum a l) (hc : ReadsSum c r) :
    ReadsSum (a ++ [.plus] ++ c) (.add l r) := by
  intro s outer
  obtain ⟨s', p, hp, hv⟩ := ha s outer
  obtain ⟨s'', q, hq, hw⟩ := hc (some (plusOpt s' p)) outer
  refine ⟨s'', q, ?_, fun ρ => ?_⟩
  · rw [readToks_append, readToks_append, hp]
    exact hq
  · rw [hw ρ]
    have := hv ρ
    have h2 := denote_plusOpt ρ s' p
    simp only [sumV, Option.map_some, Option.getD_some, denote] at *
    omega

theorem ReadsSum.paren {a : List (Tok Nat)} {t : SimpleTerm} (ha : ReadsSum a t) :
    ReadsFactor ([.lpar] ++ a ++ [.rpar]) t := by
  intro cur outer
  obtain ⟨s', p, hp, hv⟩ := ha none (cur :: outer)
  refine ⟨timesOpt cur.prod (plusOpt s' p), ?_, fun ρ => ?_⟩
  · rw [readToks_append, readToks_append]
    simp only [readToks, readTok, if_true, Option.bind_some, hp]
    rfl
  · have := hv ρ
    rw [denote_timesOpt, denote_plusOpt, this]
    simp [sumV]

theorem reads_leaf (k : Tok Nat) (t : SimpleTerm) (h : ∀ s, readTok s k = operand t s) :
    ReadsFactor [k] t := by
  intro cur outer
  refine ⟨timesOpt cur.prod t, ?_, fun ρ => denote_timesOpt ρ _ _⟩
  simp [readToks, h, operand]

theorem maybeFmt_reads (hb : Bool) (t : SimpleTerm) (hp : Printable hb t) (ks : List (Tok Nat))
    (h : @maybeFmt Nat _ (natWV fmtN) hb t = some ks) :
    (hb = false → ReadsFactor ks t) ∧ ReadsSum ks t := by
  induction t generalizing hb ks with
  | value n =>
    simp only [maybeFmt, Option.some.injEq] at h; subst h
    have := reads_leaf (.wt n) (.value n) fun s => rfl
    exact ⟨fun _ => this, this.toSum⟩
  | scalar n =>
    simp only [maybeFmt, Option.some.injEq] at h; subst h
    have := reads_leaf (.num n) (.scalar n) fun s => rfl
    exact ⟨fun _ => this, this.toSum⟩
  | var x =>
    simp only [maybeFmt, Option.some.injEq] at h; subst h
    have := reads_leaf (.ident x) (.var x) fun s => rfl
    exact ⟨fun _ => this, this.toSum⟩
  | mul l r ihl ihr =>
    unfold maybeFmt at h
    rw [Printable] at hp
    split at h
    · rename_i h1
      have h1 := (isConstOne_iff fmtN l).1 h1
      have hpr : Printable hb r := by
        rcases hp with hp | hp | hp | hp
        · exact hp.2
        · exact absurd h1 hp.1
        · exact absurd h1 hp.1
        · exact absurd h1 hp.1
      obtain ⟨hf, hs⟩ := ihr hb hpr ks h
      have e : ∀ ρ, denote ρ r = denote ρ (.mul l r) := fun ρ => by simp [denote, denote_lit h1]
      exact ⟨fun hh => (hf hh).congr e, hs.congr e⟩
    · rename_i h1
      have h1 : ¬ isLit 1 l := fun hh => h1 ((isConstOne_iff fmtN l).2 hh)
      split at h
      · rename_i h2
        have h2 := (isConstOne_iff fmtN r).1 h2
        have hpl : Printable hb l := by
          rcases hp with hp | hp | hp | hp
          · exact absurd hp.1 h1
          · exact hp.2.2
          · exact absurd h2 hp.2.1
          · exact absurd h2 hp.2.1
        obtain ⟨hf, hs⟩ := ihl hb hpl ks h
        have e : ∀ ρ, denote ρ l = denote ρ (.mul l r) := fun ρ => by simp [denote, denote_lit h2]
        exact ⟨fun hh => (hf hh).congr e, hs.congr e⟩
      · rename_i h2
        have h2 : ¬ isLit 1 r := fun hh => h2 ((isConstOne_iff fmtN r).2 hh)
        split at h
        · cases h
        · rename_i h0
          have h0r : ¬ isLit 0 r := fun hh => h0 (by rw [(isConstZero_iff fmtN r).2 hh]; rfl)
          have h0l : ¬ isLit 0 l := fun hh => h0 (by rw [(isConstZero_iff fmtN l).2 hh]; simp)
          have hpp : ¬ Null l ∧ ¬ Null r ∧ Printable false l ∧ Printable false r := by
            rcases hp with hp | hp | hp | hp
            · exact absurd hp.1 h1
            · exact absurd hp.2.1 h2
            · rcases hp.2.2 with hh | hh
              · exact absurd hh h0l
              · exact absurd hh h0r
            · exact ⟨hp.2.2.2.2.1, hp.2.2.2.2.2.1, hp.2.2.2.2.2.2.1, hp.2.2.2.2.2.2.2⟩
          obtain ⟨hnl, hnr, hpl, hpr⟩ := hpp
          split at h
          · rename_i a c hl hr
            cases h
            have := ((ihl false hpl _ hl).1 rfl).mul ((ihr false hpr _ hr).1 rfl)
            exact ⟨fun _ => this, this.toSum⟩
          · rename_i hl hr
            exact absurd (maybeFmt_none_null fmtN _ _ hr) hnr
          · rename_i hl hr
            exact absurd (maybeFmt_none_null fmtN _ _ hl) hnl
          · cases h
  | add l r ihl ihr =>
    unfold maybeFmt at h
    rw [Printable] at hp
    split at h
    · cases h
    · rename_i h00
      split at h
      · rename_i h1
        have h1 := (isConstZero_iff fmtN l).1 h1
        have h2 : ¬ isLit 0 r := fun hh => h00 (by
          rw [(isConstZero_iff fmtN l).2 h1, (isConstZero_iff fmtN r).2 hh]; rfl)
        have hpr : Printable hb r := by
          rcases hp with hp | hp | hp | hp
          · exact absurd hp.2 h2
          · exact hp.2.2
          · exact absurd h1 hp.1
          · exact absurd h1 hp.1
        obtain ⟨hf, hs⟩ := ihr hb hpr ks h
        have e : ∀ ρ, denote ρ r = denote ρ (.add l r) := fun ρ => by simp [denote, denote_lit h1]
        exact ⟨fun hh => (hf hh).congr e, hs.congr e⟩
      · rename_i h1
        have h1 : ¬ isLit 0 l := fun hh => h1 ((isConstZero_iff fmtN l).2 hh)
        split at h
        · rename_i h2
          have h2 := (isConstZero_iff fmtN r).1 h2
          have hpl : Printable hb l := by
            rcases hp with hp | hp | hp | hp
            · exact absurd hp.1 h1
            · exact absurd hp.1 h1
            · exact hp.2.2
            · exact absurd h2 hp.2.1
          obtain ⟨hf, hs⟩ := ihl hb hpl ks h
          have e : ∀ ρ, denote ρ l = denote ρ (.add l r) := fun ρ => by simp [denote, denote_lit h2]
          exact ⟨fun hh => (hf hh).congr e, hs.congr e⟩
        · rename_i h2
          have h2 : ¬ isLit 0 r := fun hh => h2 ((isConstZero_iff fmtN r).2 hh)
          have hpp : Printable true l ∧ Printable true r ∧ (hb = false → ¬ Null l ∧ ¬ Null r) := by
            rcases hp with hp | hp | hp | hp
            · exact absurd hp.1 h1
            · exact absurd hp.1 h1
            · exact absurd hp.2.1 h2
            · exact ⟨hp.2.2.1, hp.2.2.2.1, hp.2.2.2.2⟩
          obtain ⟨hpl, hpr, hnn⟩ := hpp
          split at h
          · rename_i hbt
            subst hbt
            refine ⟨fun hh => (by cases hh), ?_⟩
            split at h
            · rename_i a c hl hr
              cases h
              exact (ihl true hpl _ hl).2.add (ihr true hpr _ hr).2
            · rename_i a hl hr
              cases h
              refine (ihl true hpl _ hl).2.congr fun ρ => ?_
              simp [denote, maybeFmt_none_null fmtN _ _ hr ρ]
            · rename_i c hl hr
              cases h
              refine (ihr true hpr _ hr).2.congr fun ρ => ?_
              simp [denote, maybeFmt_none_null fmtN _ _ hl ρ]
            · cases h
          · rename_i hbf
            have hbf : hb = false := by simpa using hbf
            split at h
            · rename_i a c hl hr
              cases h
              have := ((ihl true hpl _ hl).2.add (ihr true hpr _ hr).2).paren
              have e : [Tok.lpar] ++ (a ++ [.plus] ++ c) ++ [.rpar] = [.lpar] ++ a ++ [.plus] ++ c ++ [.rpar] := by
                simp [List.append_assoc]
              rw [e] at this
              exact ⟨fun _ => this, this.toSum⟩
            · rename_i hl hr
              exact absurd (maybeFmt_none_null fmtN _ _ hr) (hnn hbf).2
            · rename_i hl hr
              exact absurd (maybeFmt_none_null fmtN _ _ hl) (hnn hbf).1
            · cases h

/-- C12: for every printable equation, reading the printed form with the usual precedence gives an equation with the same value for
all variable values. (Printed numbers are compared before they are abbreviated; see C13 for the abbreviation.) -/
theorem C12_display_faithful (t : SimpleTerm) (hp : Printable true t) :
    ∃ u, readEquation (@fmtTokens Nat _ (natWV fmtN) true t) = some u ∧ ∀ ρ, denote ρ u = denote ρ t := by
  unfold fmtTokens
  cases h : @maybeFmt Nat _ (natWV fmtN) true t with
  | none =>
    refine ⟨.scalar 0, rfl, fun ρ => ?_⟩
    rw [maybeFmt_none_null fmtN _ _ h ρ]; rfl
  | some ks =>
    obtain ⟨s', p, hr, hv⟩ := (maybeFmt_reads fmtN true t hp ks h).2 none []
    refine ⟨plusOpt s' p, ?_, fun ρ => ?_⟩
    · simp [readEquation, hr]
    · rw [denote_plusOpt, hv ρ]; simp [sumV]

theorem noZeroLit_pos {t : SimpleTerm} (h : NoZeroLit t) : 0 < denote (fun _ => 1) t := by
  induction t with
  | value n =>
    simp only [denote]
    rcases Nat.eq_zero_or_pos n with rfl | hn
    · exact absurd .refl h.1
    · exact hn
  | scalar n =>
    simp only [denote]
    rcases Nat.eq_zero_or_pos n with rfl | hn
    · exact absurd .refl h.2
    · exact hn
  | var x => simp [denote]
  | add l r ihl ihr =>
    have := ihl ⟨fun hh => h.1 (.addL hh), fun hh => h.2 (.addL hh)⟩
    simp only [denote]; omega
  | mul l r ihl ihr =>
    exact Nat.mul_pos (ihl ⟨fun hh => h.1 (.mulL hh), fun hh => h.2 (.mulL hh)⟩)
      (ihr ⟨fun hh => h.1 (.mulR hh), fun hh => h.2 (.mulR hh)⟩)

theorem noZeroLit_printable {t : SimpleTerm} (h : NoZeroLit t) (top : Bool) : Printable top t := by
  have nl : ∀ {u : SimpleTerm}, NoZeroLit u → ¬ isLit 0 u := fun {u} hu hl => by
    have := noZeroLit_pos hu
    rw [denote_lit hl] at this
    omega
  have nn : ∀ {u : SimpleTerm}, NoZeroLit u → ¬ Null u := fun {u} hu hl => by
    have := noZeroLit_pos hu
    rw [hl] at this
    omega
  induction t generalizing top with
  | value n => trivial
  | scalar n => trivial
  | var x => trivial
  | add l r ihl ihr =>
    have hl : NoZeroLit l := ⟨fun hh => h.1 (.addL hh), fun hh => h.2 (.addL hh)⟩
    have hr : NoZeroLit r := ⟨fun hh => h.1 (.addR hh), fun hh => h.2 (.addR hh)⟩
    exact .inr (.inr (.inr ⟨nl hl, nl hr, ihl hl true, ihr hr true, fun _ => ⟨nn hl, nn hr⟩⟩))
  | mul l r ihl ihr =>
    have hl : NoZeroLit l := ⟨fun hh => h.1 (.mulL hh), fun hh => h.2 (.mulL hh)⟩
    have hr : NoZeroLit r := ⟨fun hh => h.1 (.mulR hh), fun hh => h.2 (.mulR hh)⟩
    rw [Printable]
    by_cases h1 : isLit 1 l
    · exact .inl ⟨h1, ihr hr top⟩
    · by_cases h2 : isLit 1 r
      · exact .inr (.inl ⟨h1, h2, ihl hl top⟩)
      · exact .inr (.inr (.inr ⟨h1, h2, nl hl, nl hr, nn hl, nn hr, ihl hl false, ihr hr false⟩))

/-- C12: in particular every equation without a literal zero is printed faithfully. -/
theorem C12_display_faithful_no_zero (t : SimpleTerm) (h : NoZeroLit t) :
    ∃ u, readEquation (@fmtTokens Nat _ (natWV fmtN) true t) = some u ∧ ∀ ρ, denote ρ u = denote ρ t :=
  C12_display_faithful fmtN t (noZeroLit_printable h true)

/-- Reading `ks` leaves the nesting unchanged and completes an operand. -/
def Readable (ks : List (Tok Nat)) : Prop :=
  ∀ cur outer, ∃ s p, readToks ⟨cur, outer, true⟩ ks = some ⟨⟨s, some p⟩, outer, false⟩

theorem Readable.times {a c : List (Tok Nat)} (ha : Readable a) (hc : Readable c) : Readable (a ++ [.times] ++ c) := by
  intro cur outer
  obtain ⟨s, p, hp⟩ := ha cur outer
  obtain ⟨s', p', hp'⟩ := hc ⟨s, some p⟩ outer
  refine ⟨s', p', ?_⟩
  rw [readToks_append, readToks_append, hp]
  exact hp'

theorem Readable.plus {a c : List (Tok Nat)} (ha : Readable a) (hc : Readable c) : Readable (a ++ [.plus] ++ c) := by
  intro cur outer
  obtain ⟨s, p, hp⟩ := ha cur outer
  obtain ⟨s', p', hp'⟩ := hc ⟨some (plusOpt s p), none⟩ outer
  refine ⟨s', p', ?_⟩
  rw [readToks_append, readToks_append, hp]
  exact hp'

theorem Readable.paren {a : List (Tok Nat)} (ha : Readable a) : Readable ([.lpar] ++ a ++ [.rpar]) := by
  intro cur outer
  obtain ⟨s, p, hp⟩ := ha ⟨none, none⟩ (cur :: outer)
  refine ⟨cur.sum, timesOpt cur.prod (plusOpt s p), ?_⟩
  rw [readToks_append, readToks_append]
  simp only [readToks, readTok, if_true, Option.bind_some, hp]
  rfl

theorem maybeFmt_readable (hb : Bool) (t : SimpleTerm) (ks : List (Tok Nat))
    (h : @maybeFmt Nat _ (natWV fmtN) hb t = some ks) : Readable ks := by
  have leaf : ∀ k (u : SimpleTerm), (∀ s, readTok s k = operand u s) → Readable [k] := by
    intro k u hk cur outer
    exact ⟨cur.sum, timesOpt cur.prod u, by simp [readToks, hk, operand]⟩
  induction t generalizing hb ks with
  | value n =>
    simp only [maybeFmt, Option.some.injEq] at h; subst h
    exact leaf (.wt n) (.value n) fun s => rfl
  | scalar n =>
    simp only [maybeFmt, Option.some.injEq] at h; subst h
    exact leaf (.num n) (.scalar n) fun s => rfl
  | var x =>
    simp only [maybeFmt, Option.some.injEq] at h; subst h
    exact leaf (.ident x) (.var x) fun s => rfl
  | mul l r ihl ihr =>
    unfold maybeFmt at h
    split at h
    · exact ihr _ _ h
    · split at h
      · exact ihl _ _ h
      · split at h
        · cases h
        · split at h
          · rename_i a c hl hr
            cases h
            exact (ihl _ _ hl).times (ihr _ _ hr)
          · rename_i a hl hr
            cases h
            exact ihl _ _ hl
          · rename_i c hl hr
            cases h
            exact ihr _ _ hr
          · cases h
  | add l r ihl ihr =>
    unfold maybeFmt at h
    split at h
    · cases h
    · split at h
      · exact ihr _ _ h
      · split at h
        · exact ihl _ _ h
        · split at h
          · split at h
            · rename_i a c hl hr
              cases h
              exact (ihl _ _ hl).plus (ihr _ _ hr)
            · rename_i a hl hr
              cases h
              exact ihl _ _ hl
            · rename_i c hl hr
              cases h
              exact ihr _ _ hr
            · cases h
          · split at h
            · rename_i a c hl hr
              cases h
              have := ((ihl _ _ hl).plus (ihr _ _ hr)).paren
              simpa [List.append_assoc] using this
            · rename_i a hl hr
              cases h
              exact ihl _ _ hl
            · rename_i c hl hr
              cases h
              exact ihr _ _ hr
            · cases h

/-- C12: every printed equation is well-formed (it can be read), printable or not. -/
theorem C12_always_readable (t : SimpleTerm) : ∃ u, readEquation (@fmtTokens Nat _ (natWV fmtN) true t) = some u := by
  unfold fmtTokens
  cases h : @maybeFmt Nat _ (natWV fmtN) true t with
  | none => exact ⟨.scalar 0, rfl⟩
  | some ks =>
    obtain ⟨s, p, hr⟩ := maybeFmt_readable fmtN true t ks h ⟨none, none⟩ []
    exact ⟨plusOpt s p, by simp [readEquation, hr]⟩

/-- C12: an equation printed as nothing (and therefore as `0`) is zero for all variable values. -/
theorem C12_none_is_zero (t : SimpleTerm) (h : @maybeFmt Nat _ (natWV fmtN) true t = none) (ρ : Str → Nat) :
    denote ρ t = 0 ∧ @fmtTokens Nat _ (natWV fmtN) true t = [.num 0] :=
  ⟨maybeFmt_none_null fmtN _ _ h ρ, by unfold fmtTokens; rw [h]; rfl⟩

/-- C12, counterexample 1 (a disagreement between code and intent): a product with an operand that vanishes but is not a literal zero is
printed as its other operand: `x * (0 + 0)` prints `x`. -/
theorem C12_vanishing_product_misprinted :
    ∃ t : SimpleTerm, @fmtTokens Nat _ (natWV fmtN) true t = [.ident (str% "x")] ∧ (∀ ρ, denote ρ t = 0)
      ∧ readEquation [.ident (str% "x")] = some (.var (str% "x")) :=
  ⟨.mul (.var (str% "x")) (.add (.scalar 0) (.scalar 0)), by rfl, fun ρ => by simp [denote], by decide⟩

/-- C12, counterexample 2: brackets are lost when one summand vanishes: `(a + b + 0 * c) * d` prints `a + b * d`. -/
theorem C12_brackets_lost :
    ∃ t u : SimpleTerm, @fmtTokens Nat _ (natWV fmtN) true t
        = [.ident (str% "a"), .plus, .ident (str% "b"), .times, .ident (str% "d")]
      ∧ readEquation (@fmtTokens Nat _ (natWV fmtN) true t) = some u
      ∧ denote (fun _ => 2) t = 8 ∧ denote (fun _ => 2) u = 6 :=
  ⟨.mul (.add (.add (.var (str% "a")) (.var (str% "b"))) (.mul (.scalar 0) (.var (str% "c")))) (.var (str% "d")),
    .add (.var (str% "a")) (.mul (.var (str% "b")) (.var (str% "d"))), by rfl, by rfl, by decide, by decide⟩

/-- A typical parsed equation with a vanishing summand, `5 * n + (0 * READ + 1 * WRITE)`, is printable (its zero product stands in a
sum, not inside a product) and prints as `5 * n + WRITE`. -/
example : Printable true (.add (.mul (.value 5) (.var (str% "n"))) (.add (.mul (.scalar 0) (.var (str% "READ")))
      (.mul (.scalar 1) (.var (str% "WRITE")))))
    ∧ @fmtTokens Nat _ (natWV fmtN) true (.add (.mul (.value 5) (.var (str% "n"))) (.add (.mul (.scalar 0) (.var (str% "READ")))
      (.mul (.scalar 1) (.var (str% "WRITE"))))) = [.wt 5, .times, .ident (str% "n"), .plus, .ident (str% "WRITE")] := by
  refine ⟨?_, rfl⟩
  have h5 : ¬ Null (.value 5) := fun h => absurd (h fun _ => 1) (by decide)
  have hn : ¬ Null (.var (str% "n")) := fun h => absurd (h fun _ => 1) (by decide)
  simp [Printable, isLit, h5, hn]

end

/-! ### C14: fmt_equation -/

theorem mapM_some {T : Type} {scope : Scope (Term T)} {f : Str → Term T → Str} (l : List Str)
    (h : ∀ x ∈ l, ∃ u, binding scope x = some u) :
    ∃ bs : List (Str × Term T), bs.map (·.1) = l ∧ (∀ p ∈ bs, binding scope p.1 = some p.2)
      ∧ (l.mapM fun v => do
          let u ← Res.unwrap (Scope.get scope v)
          Res.ok (f v u)) = Res.ok (bs.map fun p => f p.1 p.2) := by
  induction l with
  | nil => exact ⟨[], rfl, by simp, rfl⟩
  | cons x l ih =>
    obtain ⟨u, hu⟩ := h x (by simp)
    obtain ⟨bs, h1, h2, h3⟩ := ih fun y hy => h y (List.mem_cons_of_mem _ hy)
    refine ⟨(x, u) :: bs, by simp [h1], ?_, ?_⟩
    · intro p hp
      rcases List.mem_cons.1 hp with rfl | hp
      · exact hu
      · exact h2 p hp
    · rw [List.mapM_cons, h3]
      simp [hu, Res.unwrap]

/-- C14: `fmt_equation` never panics; it prints, separated by `, `, first `name=value` for every bound variable of the equation, then
the name of every free one; each part lists exactly these variables once, in ascending order. -/
theorem C14_fmt_equation {T : Type} [DecidableEq T] [WeightValue T] (fmtN : Nat → Str) (scope : Scope (Term T)) (t : Term T) :
    ∃ (bs : List (Str × Term T)) (fs : List Str),
      fmtEquation fmtN scope t
        = .ok (joinStr (str% ", ") (bs.map (fun p => p.1 ++ str% "=" ++ display fmtN p.2) ++ fs))
      ∧ (∀ k u, (k, u) ∈ bs ↔ Occurs k t ∧ binding scope k = some u)
      ∧ (∀ k, k ∈ fs ↔ Occurs k t ∧ binding scope k = none)
      ∧ bs.Pairwise (fun p q => compare p.1 q.1 = .lt) ∧ fs.Pairwise (fun p q => compare p q = .lt) := by
  obtain ⟨bs, h1, h2, h3⟩ := mapM_some (scope := scope) (f := fun v u => v ++ str% "=" ++ display fmtN u) (boundVars scope t)
    fun x hx => ((mem_boundVars scope t x).1 hx).2
  refine ⟨bs, freeVars scope t, ?_, ?_, fun k => mem_freeVars scope t k, ?_, sorted_freeVars scope t⟩
  · unfold fmtEquation
    rw [h3]; rfl
  · intro k u
    constructor
    · intro hm
      have hk : k ∈ boundVars scope t := by rw [← h1]; exact List.mem_map.2 ⟨_, hm, rfl⟩
      exact ⟨((mem_boundVars scope t k).1 hk).1, h2 _ hm⟩
    · rintro ⟨ho, hb⟩
      have hk : k ∈ boundVars scope t := (mem_boundVars scope t k).2 ⟨ho, u, hb⟩
      rw [← h1] at hk
      obtain ⟨p, hp, hpk⟩ := List.mem_map.1 hk
      have := h2 p hp
      rw [hpk, hb] at this
      cases p
      simp only at hpk this
      cases this; subst hpk; exact hp
  · have := sorted_boundVars scope t
    rw [← h1] at this
    simpa [SortedBy, List.pairwise_map] using this

/-- Bound variables come first with their values, then the free ones. -/
example : @fmtEquation Nat _ (natWV natToStr) natToStr exCtx
      (.add (.mul (.var (str% "z")) (.var (str% "n"))) (.add (.var (str% "READ")) (.var (str% "a"))))
    = .ok (str% "READ=25000000, n=7, a, z") := by decide

end Swc
