/-
C59: colours of the command line.  C60: CSV output.  C61: tables.  C67: printed percentages.
-/
import Verif.Model.Cli
import Verif.Props.HtmlOut
import Verif.Props.Sort
import Verif.Props.CompareFiles
import Verif.Props.Print
import Verif.Spec.Equation

namespace Swc

open Spec F64

/-! ### Characters -/

/-- Characters that are neither separators of CSV nor the start of a control sequence. -/
def plainChar (c : Char) : Bool := c ≠ ',' && c ≠ '\n' && c ≠ esc

theorem plain_of_digit {c : Char} (h : c.isDigit = true) : plainChar c = true := by
  simp only [plainChar, Bool.and_eq_true, decide_eq_true_eq]
  refine ⟨⟨?_, ?_⟩, ?_⟩ <;> rintro rfl <;> revert h <;> decide

theorem plain_of_numChar {c : Char} (h : isNumChar c = true) : plainChar c = true := by
  simp only [isNumChar, Bool.or_eq_true, decide_eq_true_eq] at h
  rcases h with h | rfl
  · exact plain_of_digit h
  · decide

theorem plain_natToStr (n : ℕ) : ∀ c ∈ natToStr n, plainChar c = true := fun _ hc => plain_of_digit (natToStr_isDigit hc)

theorem plain_fmt2Nonneg (q : ℚ) : ∀ c ∈ fmt2Nonneg q, plainChar c = true := fun c hc => plain_of_numChar (fmt2Nonneg_numChars q c hc)

theorem plain_append {s t : Str} (hs : ∀ c ∈ s, plainChar c = true) (ht : ∀ c ∈ t, plainChar c = true) :
    ∀ c ∈ s ++ t, plainChar c = true := by
  intro c hc
  rcases List.mem_append.1 hc with h | h
  · exact hs c h
  · exact ht c h

theorem plain_fmt2 (x : F64) : ∀ c ∈ fmt2 x, plainChar c = true := by
  cases x with
  | nan => decide
  | ninf => decide
  | pinf => decide
  | fin q =>
    unfold fmt2
    dsimp only
    split
    · exact plain_append (by decide) (plain_fmt2Nonneg _)
    · exact plain_fmt2Nonneg _

theorem plain_fmtScalar (n : ℕ) : ∀ c ∈ Dimension.fmtScalar n, plainChar c = true := by
  unfold Dimension.fmtScalar fmtQuot
  repeat' split
  all_goals first | exact plain_append (plain_fmt2 _) (by decide) | exact plain_natToStr _

theorem plain_fmtValue (d : Dimension) (n : ℕ) : ∀ c ∈ d.fmtValue n, plainChar c = true := by
  unfold Dimension.fmtValue Dimension.fmtTime Dimension.fmtProof fmtQuot
  repeat' split
  all_goals first | exact plain_append (plain_fmt2 _) (by decide) | exact plain_append (plain_natToStr _) (by decide)

theorem plain_valueCell (d : Dimension) (v : Option ℕ) : ∀ c ∈ valueCell d v, plainChar c = true := by
  cases v with
  | none => simp [valueCell]
  | some v => exact plain_fmtValue d v

theorem plain_replicate (k : ℕ) : ∀ c ∈ List.replicate k ' ', plainChar c = true := by
  intro c hc
  rw [List.eq_of_mem_replicate hc]
  decide

theorem plain_fmtSigned (p : F64) : ∀ c ∈ F64.fmtSigned p, plainChar c = true := by
  cases p with
  | nan => decide
  | ninf => decide
  | pinf => decide
  | fin q =>
    unfold F64.fmtSigned
    dsimp only
    refine plain_append (plain_replicate _) ?_
    split
    · exact plain_append (by decide) (plain_fmt2Nonneg _)
    · exact plain_append (by decide) (plain_fmt2Nonneg _)

/-- The text of `color_percent` without colour. -/
theorem plain_colorPercent (p : F64) (k : RelativeChange) : ∀ c ∈ colorPercent p k true, plainChar c = true := by
  cases k with
  | unchanged => exact (by decide : ∀ c ∈ str% "Unchanged", plainChar c = true)
  | added => exact (by decide : ∀ c ∈ str% "Added", plainChar c = true)
  | removed => exact (by decide : ∀ c ∈ str% "Removed", plainChar c = true)
  | changed =>
    unfold colorPercent maybeColor
    simp only [if_true, ite_self]
    exact plain_fmtSigned p

/-! ### C59 -/

theorem terminal_plain {colour : ℕ} {s : Str} (t : Str) (h : ∀ c ∈ s, plainChar c = true) :
    terminal .normal colour (s ++ t) =
      ((s.map fun c => (c, colour)) ++ (terminal .normal colour t).1, (terminal .normal colour t).2) := by
  induction s with
  | nil => rfl
  | cons c s ih =>
    have hc := h c List.mem_cons_self
    have hne : c ≠ Char.ofNat 27 := by
      rintro rfl
      revert hc
      decide
    simp only [List.cons_append, terminal, if_neg hne, ih fun c hc => h c (List.mem_cons_of_mem _ hc), List.map_cons]

/-- The colour number of `AnsiColor`. -/
def AnsiColor.code : AnsiColor → ℕ
  | .white => Spec.white
  | .red => Spec.red
  | .green => Spec.green

theorem showsAs_plain {s : Str} (h : ∀ c ∈ s, plainChar c = true) : ShowsAs 0 s s := by
  have := terminal_plain (colour := 0) [] h
  rw [List.append_nil] at this
  rw [ShowsAs, this]
  simp [terminal]

theorem showsAs_paint (a : AnsiColor) {s : Str} (h : ∀ c ∈ s, plainChar c = true) : ShowsAs a.code s (a.paint s) := by
  have key : ∀ col, terminal .normal col (s ++ ([esc] ++ str% "[0m")) = (s.map fun c => (c, col), 0, .normal) := by
    intro col
    rw [terminal_plain _ h]
    simp [terminal, esc, digitVal]
  unfold ShowsAs
  cases a
  · have : terminal .normal 0 (AnsiColor.white.paint s) = terminal .normal 37 (s ++ ([esc] ++ str% "[0m")) := by
      simp [AnsiColor.paint, terminal, esc, digitVal]
    rw [this, key]; rfl
  · have : terminal .normal 0 (AnsiColor.red.paint s) = terminal .normal 31 (s ++ ([esc] ++ str% "[0m")) := by
      simp [AnsiColor.paint, terminal, esc, digitVal]
    rw [this, key]; rfl
  · have : terminal .normal 0 (AnsiColor.green.paint s) = terminal .normal 32 (s ++ ([esc] ++ str% "[0m")) := by
      simp [AnsiColor.paint, terminal, esc, digitVal]
    rw [this, key]; rfl

/-- C59, command line: the coloured cell shows the text of the uncoloured one, in the colour of the change, and resets the colour. -/
theorem C59_cli_colour (p : F64) (k : RelativeChange) :
    ShowsAs (changeColour k p) (colorPercent p k true) (colorPercent p k false) := by
  have hp := plain_colorPercent p k
  cases k with
  | unchanged => exact showsAs_plain hp
  | added => exact showsAs_paint .red hp
  | removed => exact showsAs_paint .green hp
  | changed =>
    unfold colorPercent maybeColor at hp ⊢
    simp only [if_true, ite_self, Bool.false_eq_true, if_false] at hp ⊢
    cases p with
    | nan => exact showsAs_paint .white hp
    | ninf => exact showsAs_paint .green hp
    | pinf => exact showsAs_paint .red hp
    | fin q =>
      simp only [F64.lt, changeColour, decide_eq_true_eq]
      by_cases h1 : q < 0
      · rw [if_pos h1, if_pos h1]; exact showsAs_paint .green hp
      · rw [if_neg h1, if_neg h1]
        by_cases h2 : q = 0
        · rw [if_pos h2, if_neg (by rw [h2]; exact lt_irrefl 0)]; exact showsAs_paint .white hp
        · rw [if_neg h2, if_pos (lt_of_le_of_ne (not_lt.1 h1) (Ne.symm h2))]; exact showsAs_paint .red hp

/-- C59, C67, command line: the text of a change. -/
theorem C59_cli_text (p : F64) (k : RelativeChange) : ChangeText k p (colorPercent p k true) := by
  cases k with
  | unchanged => rfl
  | added => rfl
  | removed => rfl
  | changed =>
    have e : colorPercent p .changed true = F64.fmtSigned p := by
      unfold colorPercent maybeColor
      simp only [if_true, ite_self]
    rw [e]
    cases p with
    | nan => rfl
    | ninf => rfl
    | pinf => rfl
    | fin q =>
      simp only [ChangeText, F64.fmtSigned]
      by_cases h : q < 0
      · refine ⟨5 - (str% "-" ++ fmt2Nonneg (-q)).length, fmt2Nonneg (-q), ?_, ?_, ?_⟩
        · rw [if_pos h, if_pos h, List.append_assoc]
        · rw [abs_of_neg h]; exact shows_fmt2Nonneg (by linarith)
        · simp only [List.length_append, List.length_replicate]
          omega
      · refine ⟨5 - (str% "+" ++ fmt2Nonneg q).length, fmt2Nonneg q, ?_, ?_, ?_⟩
        · rw [if_neg h, if_neg h, List.append_assoc]
        · rw [abs_of_nonneg (not_lt.1 h)]; exact shows_fmt2Nonneg (not_lt.1 h)
        · simp only [List.length_append, List.length_replicate]
          omega

/-- C59: no escape character in an uncoloured cell. -/
theorem C59_no_escape (p : F64) (k : RelativeChange) : Char.ofNat 27 ∉ colorPercent p k true := by
  intro h
  have := plain_colorPercent p k _ h
  revert this
  decide

/-- C59, command line: a changed row of two `u128` weights is green only if the weight decreased and red only if it increased. -/
theorem C59_cli_direction (o n : ℕ) (ho : o < 2 ^ 128) (hn : n < 2 ^ 128) :
    (changeColour .changed (percent o n) = green → n < o) ∧ (changeColour .changed (percent o n) = red → o < n) := by
  obtain ⟨h1, h2⟩ := percent_sign ho hn
  generalize percent o n = p at *
  cases p with
  | nan => simp [changeColour, white, green, red]
  | ninf => exact ⟨fun _ => h1 rfl, fun h => by simp [changeColour, green, red] at h⟩
  | pinf => exact ⟨fun h => by simp [changeColour, green, red] at h, fun _ => h2 rfl⟩
  | fin q =>
    simp only [F64.lt, decide_eq_true_eq] at h1 h2
    simp only [changeColour]
    by_cases hq : q < 0
    · rw [if_pos hq]; exact ⟨fun _ => h1 hq, fun h => by simp [green, red] at h⟩
    · rw [if_neg hq]
      by_cases h0 : q = 0
      · rw [if_pos h0]; simp [green, red, white]
      · rw [if_neg h0]
        exact ⟨fun h => by simp [green, red] at h, fun _ => h2 (lt_of_le_of_ne (not_lt.1 hq) (Ne.symm h0))⟩

/-- C59, command line: below 2^53 the colour is exactly the direction of the change; white is left for equal weights. -/
theorem C59_cli_exact (o n : ℕ) (ho : o < 2 ^ 53) (hn : n < 2 ^ 53) :
    (changeColour .changed (percent o n) = green ↔ n < o) ∧ (changeColour .changed (percent o n) = red ↔ o < n) ∧
    (changeColour .changed (percent o n) = white ↔ o = n) := by
  obtain ⟨h1, h2⟩ := percent_sign_exact ho hn
  obtain ⟨d1, d2⟩ := C59_cli_direction o n (by omega) (by omega)
  have g : n < o → changeColour .changed (percent o n) = green := by
    intro h
    have h1 := h1.2 h
    revert h1
    cases percent o n with
    | nan => simp [F64.lt]
    | ninf => intro _; rfl
    | pinf => simp [F64.lt]
    | fin q => intro h1; simp only [F64.lt, decide_eq_true_eq] at h1; simp only [changeColour]; rw [if_pos h1]
  have r : o < n → changeColour .changed (percent o n) = red := by
    intro h
    have h2 := h2.2 h
    revert h2
    cases percent o n with
    | nan => simp [F64.lt]
    | ninf => simp [F64.lt]
    | pinf => intro _; rfl
    | fin q =>
      intro h2
      simp only [F64.lt, decide_eq_true_eq] at h2
      simp only [changeColour]
      rw [if_neg (by linarith), if_neg (by linarith)]
  refine ⟨⟨d1, g⟩, ⟨d2, r⟩, ?_, ?_⟩
  · intro h
    by_contra hne
    rcases lt_or_gt_of_ne hne with h' | h'
    · rw [r h'] at h; simp [red, white] at h
    · rw [g h'] at h; simp [green, white] at h
  · rintro rfl
    rcases Nat.eq_zero_or_pos o with rfl | h0
    · rw [C18_zero_zero]; rfl
    · rw [C18_same o h0 (by omega)]; rfl

example : ShowsAs green (str% "-10.00") (colorPercent (percent 10 9) .changed false) := by
  have h := C59_cli_colour (percent 10 9) .changed
  rw [(C59_cli_exact 10 9 (by norm_num) (by norm_num)).1.2 (by norm_num),
    show colorPercent (percent 10 9) .changed true = str% "-10.00" by decide +kernel] at h
  exact h

/-! ### C60 -/

theorem cut_clean {sep : Char} {s : Str} (h : ∀ c ∈ s, c ≠ sep) : cut sep s = [s] := by
  induction s with
  | nil => rfl
  | cons c s ih =>
    rw [cut, if_neg (h c List.mem_cons_self), ih fun c hc => h c (List.mem_cons_of_mem _ hc)]

theorem cut_append {sep : Char} {s : Str} (t : Str) (h : ∀ c ∈ s, c ≠ sep) : cut sep (s ++ sep :: t) = s :: cut sep t := by
  induction s with
  | nil => rw [List.nil_append, cut, if_pos rfl]
  | cons c s ih =>
    rw [List.cons_append, cut, if_neg (h c List.mem_cons_self), ih fun c hc => h c (List.mem_cons_of_mem _ hc)]

theorem cut_lines (l : List Str) (h : ∀ s ∈ l, ∀ c ∈ s, c ≠ '\n') : cut '\n' (l.flatMap (· ++ ['\n'])) = l ++ [[]] := by
  induction l with
  | nil => rfl
  | cons s l ih =>
    rw [List.flatMap_cons, List.append_assoc, List.singleton_append, cut_append _ (h s List.mem_cons_self),
      ih fun s hs => h s (List.mem_cons_of_mem _ hs)]
    rfl

instance (s : Str) : Decidable (SepFree s) := by unfold SepFree; infer_instance

theorem sepFree_plain {s : Str} (h : ∀ c ∈ s, plainChar c = true) : SepFree s := by
  intro c hc
  have := h c hc
  simp only [plainChar, Bool.and_eq_true, decide_eq_true_eq] at this
  exact this.1

theorem sepFree_append {s t : Str} (hs : SepFree s) (ht : SepFree t) : SepFree (s ++ t) := by
  intro c hc
  rcases List.mem_append.1 hc with h | h
  · exact hs c h
  · exact ht c h

theorem sepFree_paint (a : AnsiColor) {s : Str} (h : SepFree s) : SepFree (a.paint s) := by
  have e : SepFree [esc] := by decide
  have e1 : SepFree (str% "[37m") := by decide
  have e2 : SepFree (str% "[31m") := by decide
  have e3 : SepFree (str% "[32m") := by decide
  have e4 : SepFree (str% "[0m") := by decide
  cases a <;> unfold AnsiColor.paint
  · exact sepFree_append (sepFree_append (sepFree_append (sepFree_append e e1) h) e) e4
  · exact sepFree_append (sepFree_append (sepFree_append (sepFree_append e e2) h) e) e4
  · exact sepFree_append (sepFree_append (sepFree_append (sepFree_append e e3) h) e) e4

theorem sepFree_colorPercent (p : F64) (k : RelativeChange) (nc : Bool) : SepFree (colorPercent p k nc) := by
  have h := sepFree_plain (plain_colorPercent p k)
  cases nc with
  | true => exact h
  | false =>
    have hm : ∀ a s, SepFree s → SepFree (maybeColor a s false) := fun a s hs => by
      unfold maybeColor
      simp only [Bool.false_eq_true, if_false]
      exact sepFree_paint a hs
    cases k with
    | unchanged => exact h
    | added => exact hm _ _ h
    | removed => exact hm _ _ h
    | changed =>
      have hs := sepFree_plain (plain_fmtSigned p)
      unfold colorPercent
      dsimp only
      split
      · exact hm _ _ hs
      · split
        · exact hm _ _ hs
        · exact hm _ _ hs

/-- The five cells of a row, as the code computes them. -/
def rowCells (f : FormatParams) (unit : Dimension) (file name : Str) (c : TermChange) : List Str :=
  [file, name, valueCell unit c.oldV, valueCell unit c.newV, colorPercent c.percent c.change f.noColor]

theorem weightCell_valueCell {unit : Dimension} {v : Option ℕ} (h : ∀ n, v = some n → n < 2 ^ 128) : WeightCell unit v (valueCell unit v) := by
  cases v with
  | none => rfl
  | some n =>
    have := C13_fmt_value unit n (h n rfl)
    cases unit <;> exact this

theorem rowFor_rowCells (f : FormatParams) (unit : Dimension) (file name : Str) (c : TermChange) (h1 : ∀ v, c.oldV = some v → v < 2 ^ 128)
    (h2 : ∀ v, c.newV = some v → v < 2 ^ 128) : RowFor unit f.noColor file name c (rowCells f unit file name c) := by
  refine ⟨_, _, _, colorPercent c.percent c.change true, rfl, weightCell_valueCell h1, weightCell_valueCell h2, C59_cli_text _ _, ?_⟩
  cases f.noColor with
  | true => rfl
  | false => exact C59_cli_colour _ _

theorem term_eq_numbers (e : ExtrinsicDiff) : e.term = numbers e.change := by
  unfold ExtrinsicDiff.term numbers
  rfl

theorem error_isSome_iff (e : ExtrinsicDiff) : e.error.isSome = (numbers e.change).isNone := by
  unfold ExtrinsicDiff.error numbers
  cases e.change <;> rfl

/-- Rows are produced one for each entry that is not an error, in order. -/
theorem termRows_forall {diff : List ExtrinsicDiff} {β : Type} (g : ExtrinsicDiff → TermChange → β) :
    List.Forall₂ (fun e (x : β) => ∃ c, numbers e.change = some c ∧ x = g e c) (diff.filter fun e => (numbers e.change).isSome)
      ((termRows diff).map fun p => g p.1 p.2) := by
  induction diff with
  | nil => exact .nil
  | cons e l ih =>
    unfold termRows at ih ⊢
    rw [List.filterMap_cons, List.filter_cons, term_eq_numbers]
    cases h : numbers e.change with
    | none => simpa using ih
    | some c =>
      simp only [Option.map_some, Option.isSome_some, if_true, List.map_cons]
      exact .cons ⟨c, h, rfl⟩ ih

theorem forall₂_imp {α β : Type} {R S : α → β → Prop} {l : List α} {r : List β} (h : List.Forall₂ R l r)
    (hi : ∀ a ∈ l, ∀ b, R a b → S a b) : List.Forall₂ S l r := by
  induction h with
  | nil => exact .nil
  | cons h1 _ ih => exact .cons (hi _ List.mem_cons_self _ h1) (ih fun a ha b hab => hi a (List.mem_cons_of_mem _ ha) b hab)

theorem mem_termRows {diff : List ExtrinsicDiff} {p : ExtrinsicDiff × TermChange} (h : p ∈ termRows diff) :
    p.1 ∈ diff ∧ numbers p.1.change = some p.2 := by
  unfold termRows at h
  obtain ⟨e, he, hp⟩ := List.mem_filterMap.1 h
  rw [term_eq_numbers] at hp
  cases hn : numbers e.change with
  | none => rw [hn] at hp; cases hp
  | some c => rw [hn] at hp; cases hp; exact ⟨he, hn⟩

theorem cut_five {a b c d e : Str} (ha : SepFree a) (hb : SepFree b) (hc : SepFree c) (hd : SepFree d) (rest : Str) :
    cut ',' (a ++ ',' :: (b ++ ',' :: (c ++ ',' :: (d ++ ',' :: (e ++ rest))))) = a :: b :: c :: d :: cut ',' (e ++ rest) := by
  rw [cut_append _ fun x hx => (ha x hx).1, cut_append _ fun x hx => (hb x hx).1, cut_append _ fun x hx => (hc x hx).1,
    cut_append _ fun x hx => (hd x hx).1]

/-- A line of CSV, without its end. -/
def csvBody (env : PrintEnv) (f : FormatParams) (unit : Dimension) (info : ExtrinsicDiff) (c : TermChange) : Str :=
  info.file ++ ',' :: (info.name ++ ',' :: (valueCell unit c.oldV ++ ',' :: (valueCell unit c.newV ++ ',' ::
    (colorPercent c.percent c.change f.noColor ++
      (if f.printTerms then termCell c.old ++ ',' :: (termCell c.new ++ ',' :: noCommas (env.debugScope c.scope)) else [])))))

theorem csvRow_body (env : PrintEnv) (f : FormatParams) (unit : Dimension) (info : ExtrinsicDiff) (c : TermChange) :
    csvRow env f unit info c = csvBody env f unit info c ++ ['\n'] := by
  unfold csvRow csvBody
  cases f.printTerms <;> simp

theorem csv_lines {env : PrintEnv} {f : FormatParams} {unit : Dimension} {diff : List ExtrinsicDiff} (hne : diff ≠ [])
    (h : ∀ p ∈ termRows diff, ∀ c ∈ csvBody env f unit p.1 p.2, c ≠ '\n') :
    cut '\n' (printChangesCsv env diff f unit) =
      (str% "File,Extrinsic,Old,New,Change Percent" ++ (if f.printTerms then str% ",Old Weight Term,New Weight Term,Used variables" else []))
        :: ((termRows diff).map fun p => csvBody env f unit p.1 p.2) ++ [[]] := by
  unfold printChangesCsv
  rw [if_neg (by simpa using hne)]
  rw [List.append_assoc, List.append_assoc, ← List.append_assoc, List.singleton_append, cut_append]
  · have e : (termRows diff).flatMap (fun p => csvRow env f unit p.1 p.2) =
        ((termRows diff).map fun p => csvBody env f unit p.1 p.2).flatMap (· ++ ['\n']) := by
      rw [List.flatMap_map]
      congr 1
      funext p
      exact csvRow_body env f unit p.1 p.2
    rw [e, cut_lines]
    · rfl
    · intro s hs
      obtain ⟨p, hp, rfl⟩ := List.mem_map.1 hs
      exact h p hp
  · cases f.printTerms <;> decide

theorem not_newline {s : Str} (h : SepFree s) : ∀ c ∈ s, c ≠ '\n' := fun c hc => (h c hc).2

theorem body_newline {env : PrintEnv} {f : FormatParams} {unit : Dimension} {e : ExtrinsicDiff} {c : TermChange} (h1 : SepFree e.file)
    (h2 : SepFree e.name)
    (h3 : f.printTerms = true → SepFree (termCell c.old) ∧ SepFree (termCell c.new) ∧ ∀ x ∈ env.debugScope c.scope, x ≠ '\n') :
    ∀ x ∈ csvBody env f unit e c, x ≠ '\n' := by
  have comma : ',' ≠ '\n' := by decide
  have v1 := not_newline (sepFree_plain (plain_valueCell unit c.oldV))
  have v2 := not_newline (sepFree_plain (plain_valueCell unit c.newV))
  have v3 := not_newline (sepFree_colorPercent c.percent c.change f.noColor)
  intro x hx
  unfold csvBody at hx
  simp only [List.mem_append, List.mem_cons] at hx
  rcases hx with hx | rfl | hx | rfl | hx | rfl | hx | rfl | hx | hx
  · exact not_newline h1 x hx
  · exact comma
  · exact not_newline h2 x hx
  · exact comma
  · exact v1 x hx
  · exact comma
  · exact v2 x hx
  · exact comma
  · exact v3 x hx
  · by_cases hp : f.printTerms = true
    · obtain ⟨a, b, d⟩ := h3 hp
      rw [if_pos hp] at hx
      simp only [List.mem_append, List.mem_cons] at hx
      rcases hx with hx | rfl | hx | rfl | hx
      · exact not_newline a x hx
      · exact comma
      · exact not_newline b x hx
      · exact comma
      · unfold noCommas at hx
        obtain ⟨y, hy, rfl⟩ := List.mem_map.1 hx
        split
        · decide
        · exact d y hy
    · rw [if_neg hp] at hx
      cases hx

/-- C60: without `print_terms`, the CSV output of a non-empty report reads as the five-column header, then one row of five cells for each
entry that is not an error, in order: file, call, both weights, change. -/
theorem C60_csv (env : PrintEnv) (f : FormatParams) (unit : Dimension) (diff : List ExtrinsicDiff) (hne : diff ≠ [])
    (hf : f.printTerms = false) (hc : CleanNames diff) (hw : ∀ e ∈ diff, U128Weights e) :
    ∃ rows, readCsv (printChangesCsv env diff f unit) =
        [str% "File", str% "Extrinsic", str% "Old", str% "New", str% "Change Percent"] :: rows ++ [[[]]] ∧
      List.Forall₂ (fun e row => ∃ c, numbers e.change = some c ∧ RowFor unit f.noColor e.file e.name c row)
        (diff.filter fun e => (numbers e.change).isSome) rows := by
  refine ⟨(termRows diff).map fun p => rowCells f unit p.1.file p.1.name p.2, ?_, ?_⟩
  · unfold readCsv
    rw [csv_lines hne]
    · rw [hf, List.map_append, List.map_cons, List.map_map]
      congr 2
      apply List.map_congr_left
      intro p hp
      obtain ⟨hm, _⟩ := mem_termRows hp
      show cut ',' (csvBody env f unit p.1 p.2) = _
      unfold csvBody
      rw [hf, cut_five (hc _ hm).1 (hc _ hm).2 (sepFree_plain (plain_valueCell _ _)) (sepFree_plain (plain_valueCell _ _))]
      simp only [Bool.false_eq_true, if_false, List.append_nil]
      rw [cut_clean fun x hx => (sepFree_colorPercent _ _ _ x hx).1]
      rfl
    · intro p hp
      obtain ⟨hm, _⟩ := mem_termRows hp
      exact body_newline (hc _ hm).1 (hc _ hm).2 (fun h => by rw [hf] at h; cases h)
  · refine forall₂_imp (termRows_forall fun e c => rowCells f unit e.file e.name c) ?_
    rintro e he row ⟨c, hn, rfl⟩
    obtain ⟨w1, w2⟩ := hw e (List.mem_of_mem_filter he) c hn
    exact ⟨c, hn, rowFor_rowCells f unit _ _ c w1 w2⟩

theorem ident_occurs {t : SimpleTerm} {hb : Bool} {toks : List (Term.Tok ℕ)} (h : Term.maybeFmt hb t = some toks) (x : Str)
    (hx : Term.Tok.ident x ∈ toks) : Occurs x t := by
  induction t generalizing hb toks with
  | value n => cases hb <;> · simp only [Term.maybeFmt] at h; cases h; simp at hx
  | scalar n => cases hb <;> · simp only [Term.maybeFmt] at h; cases h; simp at hx
  | var v =>
    cases hb <;>
    · simp only [Term.maybeFmt] at h
      cases h
      simp only [List.mem_singleton] at hx
      cases hx
      exact .here
  | mul l r ihl ihr =>
    unfold Term.maybeFmt at h
    split at h
    · exact .mulR (ihr h hx)
    · split at h
      · exact .mulL (ihl h hx)
      · split at h
        · cases h
        · split at h
          · rename_i h1 h2
            cases h
            simp only [List.mem_append, List.mem_singleton] at hx
            rcases hx with (hx | hx) | hx
            · exact .mulL (ihl h1 hx)
            · cases hx
            · exact .mulR (ihr h2 hx)
          · rename_i h1 h2; cases h; exact .mulL (ihl h1 hx)
          · rename_i h1 h2; cases h; exact .mulR (ihr h2 hx)
          · cases h
  | add l r ihl ihr =>
    unfold Term.maybeFmt at h
    split at h
    · cases h
    · split at h
      · exact .addR (ihr h hx)
      · split at h
        · exact .addL (ihl h hx)
        · split at h
          · split at h
            · rename_i h1 h2
              cases h
              simp only [List.mem_append, List.mem_singleton] at hx
              rcases hx with (hx | hx) | hx
              · exact .addL (ihl h1 hx)
              · cases hx
              · exact .addR (ihr h2 hx)
            · rename_i h1 h2; cases h; exact .addL (ihl h1 hx)
            · rename_i h1 h2; cases h; exact .addR (ihr h2 hx)
            · cases h
          · split at h
            · rename_i h1 h2
              cases h
              simp only [List.mem_append, List.mem_singleton] at hx
              rcases hx with (((hx | hx) | hx) | hx) | hx
              · cases hx
              · exact .addL (ihl h1 hx)
              · cases hx
              · exact .addR (ihr h2 hx)
              · cases hx
            · rename_i h1 h2; cases h; exact .addL (ihl h1 hx)
            · rename_i h1 h2; cases h; exact .addR (ihr h2 hx)
            · cases h

theorem sepFree_termCell {t : Option SimpleTerm} (h : CleanVars t) : SepFree (termCell t) := by
  cases t with
  | none => decide
  | some t =>
    intro c hc
    simp only [termCell, Term.display, List.mem_flatMap] at hc
    obtain ⟨k, hk, hc⟩ := hc
    unfold Term.fmtTokens at hk
    have fin : ∀ x, k = Term.Tok.ident x → SepFree x := by
      rintro x rfl
      cases hm : Term.maybeFmt true t with
      | none => rw [hm] at hk; simp at hk
      | some toks =>
        rw [hm, Option.getD_some] at hk
        exact h t rfl x (ident_occurs hm x hk)
    cases k with
    | num n => exact sepFree_plain (plain_fmtScalar n) c hc
    | wt n => exact sepFree_plain (plain_fmtScalar n) c hc
    | ident x => exact fin x rfl c hc
    | plus => exact (by decide : SepFree (str% " + ")) c hc
    | times => exact (by decide : SepFree (str% " * ")) c hc
    | lpar => exact (by decide : SepFree (str% "(")) c hc
    | rpar => exact (by decide : SepFree (str% ")")) c hc

theorem noCommas_clean (s : Str) : ∀ c ∈ noCommas s, c ≠ ',' := by
  intro c hc
  obtain ⟨y, hy, rfl⟩ := List.mem_map.1 hc
  split
  · decide
  · assumption

/-- C60, the negative half: with `print_terms` the header has eight columns but every row has seven, because the comma between the
percentage and the old equation is missing; the two are joined in one cell. -/
theorem C60_false_with_terms (env : PrintEnv) (f : FormatParams) (unit : Dimension) (diff : List ExtrinsicDiff) (hne : diff ≠ [])
    (hf : f.printTerms = true) (hc : CleanNames diff)
    (hv : ∀ e ∈ diff, ∀ c, numbers e.change = some c → CleanVars c.old ∧ CleanVars c.new)
    (hs : ∀ scope, ∀ x ∈ env.debugScope scope, x ≠ '\n') :
    ∃ header rows, readCsv (printChangesCsv env diff f unit) = header :: rows ++ [[[]]] ∧ header.length = 8 ∧
      List.Forall₂ (fun e row => row.length = 7 ∧ ∃ c pct term new scope, numbers e.change = some c ∧
          row.drop 4 = [pct ++ term, new, scope] ∧ pct = colorPercent c.percent c.change f.noColor ∧ term = termCell c.old ∧
          new = termCell c.new) (diff.filter fun e => (numbers e.change).isSome) rows := by
  refine ⟨[str% "File", str% "Extrinsic", str% "Old", str% "New", str% "Change Percent", str% "Old Weight Term", str% "New Weight Term",
    str% "Used variables"], (termRows diff).map fun p => [p.1.file, p.1.name, valueCell unit p.2.oldV, valueCell unit p.2.newV,
      colorPercent p.2.percent p.2.change f.noColor ++ termCell p.2.old, termCell p.2.new, noCommas (env.debugScope p.2.scope)], ?_, rfl, ?_⟩
  · unfold readCsv
    rw [csv_lines hne]
    · rw [hf, List.map_append, List.map_cons, List.map_map]
      congr 2
      apply List.map_congr_left
      intro p hp
      obtain ⟨hm, hn⟩ := mem_termRows hp
      obtain ⟨cv1, cv2⟩ := hv _ hm _ hn
      show cut ',' (csvBody env f unit p.1 p.2) = _
      unfold csvBody
      rw [hf, cut_five (hc _ hm).1 (hc _ hm).2 (sepFree_plain (plain_valueCell _ _)) (sepFree_plain (plain_valueCell _ _))]
      simp only [if_true]
      rw [← List.append_assoc, cut_append _ fun x hx => (sepFree_append (sepFree_colorPercent _ _ _) (sepFree_termCell cv1) x hx).1,
        cut_append _ fun x hx => (sepFree_termCell cv2 x hx).1, cut_clean (noCommas_clean _)]
    · intro p hp
      obtain ⟨hm, hn⟩ := mem_termRows hp
      obtain ⟨cv1, cv2⟩ := hv _ hm _ hn
      exact body_newline (hc _ hm).1 (hc _ hm).2 (fun _ => ⟨sepFree_termCell cv1, sepFree_termCell cv2, hs _⟩)
  · refine forall₂_imp (termRows_forall fun e c => [e.file, e.name, valueCell unit c.oldV, valueCell unit c.newV,
      colorPercent c.percent c.change f.noColor ++ termCell c.old, termCell c.new, noCommas (env.debugScope c.scope)]) ?_
    rintro e he row ⟨c, hn, rfl⟩
    exact ⟨rfl, c, _, _, _, _, hn, rfl, rfl, rfl, rfl⟩

/-- A report for examples: an increase, an error, and an added call. -/
def exCliReport : List ExtrinsicDiff :=
  [⟨str% "transfer", str% "balances.rs", .changed (exRow .changed 1000 1500)⟩,
   ⟨str% "burn", str% "balances.rs", .failed (str% "too many components")⟩,
   ⟨str% "mint", str% "assets.rs", .warning { exRow .added 0 7 with oldV := none, old := none } (str% "big")⟩]

/-- Printing without external parts. -/
def exPrintEnv : PrintEnv := ⟨fun _ => none, fun _ => str% "{}"⟩

theorem exCliReport_clean : CleanNames exCliReport := by
  intro e he
  simp only [exCliReport, List.mem_cons, List.not_mem_nil, or_false] at he
  rcases he with rfl | rfl | rfl <;> decide

theorem exCliReport_u128 : ∀ e ∈ exCliReport, U128Weights e := by
  intro e he c hc
  simp only [exCliReport, List.mem_cons, List.not_mem_nil, or_false] at he
  rcases he with rfl | rfl | rfl <;> simp only [numbers, Option.some.injEq] at hc
  · subst hc; constructor <;> · intro v hv; simp only [exRow, Option.some.injEq] at hv; omega
  · cases hc
  · subst hc; constructor <;> · intro v hv; simp only [exRow] at hv; first | cases hv; norm_num | cases hv

example : ∃ rows, readCsv (printChangesCsv exPrintEnv exCliReport ⟨.csv, false, true, none⟩ .time) =
        [str% "File", str% "Extrinsic", str% "Old", str% "New", str% "Change Percent"] :: rows ++ [[[]]] ∧ rows.length = 2 := by
  obtain ⟨rows, h1, h2⟩ := C60_csv exPrintEnv ⟨.csv, false, true, none⟩ .time exCliReport (by simp [exCliReport]) rfl exCliReport_clean exCliReport_u128
  exact ⟨rows, h1, by rw [← h2.length_eq]; rfl⟩

example : readCsv (printChangesCsv exPrintEnv exCliReport ⟨.csv, false, true, none⟩ .time) =
    [[str% "File", str% "Extrinsic", str% "Old", str% "New", str% "Change Percent"],
     [str% "balances.rs", str% "transfer", str% "1.00ns", str% "1.50ns", str% "+50.00"],
     [str% "assets.rs", str% "mint", [], str% "7ps", str% "Added"], [[]]] := by decide +kernel

example : (readCsv (printChangesCsv exPrintEnv exCliReport ⟨.csv, true, true, none⟩ .time)).map List.length = [8, 7, 7, 1] := by decide +kernel

/-! ### C61 -/

/-- The printed form of an equation is a text of it. -/
theorem equationText_display (t : SimpleTerm) : EquationText t (Term.display Dimension.fmtScalar t) := by
  have key : ∃ u, readEquation (Term.fmtTokens true t) = some u ∧ (Printable true t → ∀ ρ, denote ρ u = denote ρ t) := by
    by_cases hp : Printable true t
    · obtain ⟨u, h1, h2⟩ := C12_display_faithful Dimension.fmtScalar t hp
      exact ⟨u, h1, fun _ => h2⟩
    · obtain ⟨u, h1⟩ := C12_always_readable Dimension.fmtScalar t
      exact ⟨u, h1, fun h => absurd h hp⟩
  obtain ⟨u, h1, h2⟩ := key
  refine ⟨_, (Term.fmtTokens true t).map (Term.renderTok Dimension.fmtScalar), u, ?_, ?_, ?_, h1, h2⟩
  · rw [List.forall₂_map_right_iff]
    refine List.forall₂_same.2 fun k _ => ?_
    cases k with
    | num n => exact .num (C13_fmt_scalar n)
    | wt n => exact .wt (C13_fmt_scalar n)
    | ident v => exact .ident v
    | plus => exact .plus
    | times => exact .times
    | lpar => exact .lpar
    | rpar => exact .rpar
  · rw [Term.display, List.flatMap_def]
  · intro v hv
    unfold Term.fmtTokens at hv
    cases hm : Term.maybeFmt true t with
    | none =>
      rw [hm] at hv
      simp at hv
    | some toks =>
      rw [hm] at hv
      exact ident_occurs hm v hv

theorem equationCell_termCell (t : Option SimpleTerm) : EquationCell t (termCell t) := by
  cases t with
  | none => rfl
  | some t => exact equationText_display t

/-- The path shown instead of a file name, if paths can be filtered at all. -/
def Filters (env : PrintEnv) (f : FormatParams) (g : Str → Str) : Prop := ∀ path, filterPath env f path = .ok (g path)

theorem filters_none (env : PrintEnv) (f : FormatParams) (h : f.stripPathPrefix = none) : Filters env f id := by
  intro path
  unfold filterPath
  rw [h]; rfl

/-- C61: the table of a non-empty report has one row `file, call, -, -, ERROR` for each error, all of them before the other rows, and one
row for each other entry, both in the order of the report.  With `print_terms` there are three more columns: the equations before and
after, and the variables. -/
theorem C61_table (env : PrintEnv) (f : FormatParams) (unit : Dimension) (diff : List ExtrinsicDiff) (hne : diff ≠ []) (g : Str → Str)
    (hg : Filters env f g) (hw : ∀ e ∈ diff, U128Weights e) :
    ∃ header errs rows, printChangesHuman env diff f unit = .ok (some ⟨header, errs ++ rows⟩) ∧
      header = [str% "File", str% "Extrinsic", str% "Old", str% "New", str% "Change [%]"] ++
        (if f.printTerms then [str% "Old Weight Term", str% "New Weight Term", str% "Used variables"] else []) ∧
      List.Forall₂ (fun e row => row = [g e.file, e.name, str% "-", str% "-", str% "ERROR"])
        (diff.filter fun e => (numbers e.change).isNone) errs ∧
      List.Forall₂ (fun e row => ∃ c, numbers e.change = some c ∧ RowFor unit f.noColor (g e.file) e.name c (row.take 5) ∧
          TermCells f.printTerms env.debugScope c (row.drop 5)) (diff.filter fun e => (numbers e.change).isSome) rows := by
  refine ⟨[str% "File", str% "Extrinsic", str% "Old", str% "New", str% "Change [%]"]
      ++ (if f.printTerms then [str% "Old Weight Term", str% "New Weight Term", str% "Used variables"] else []),
    (diff.filter fun e => e.error.isSome).map (fun e => [g e.file, e.name, str% "-", str% "-", str% "ERROR"]),
    (termRows diff).map (fun p => rowCells f unit (g p.1.file) p.1.name p.2 ++
      if f.printTerms then [termCell p.2.old, termCell p.2.new, env.debugScope p.2.scope] else []), ?_, by rfl, ?_, ?_⟩
  · unfold printChangesHuman
    rw [if_neg (by simpa using hne)]
    rw [mapM_ok_map (g := fun e : ExtrinsicDiff => [g e.file, e.name, str% "-", str% "-", str% "ERROR"]) (fun e _ => by
        unfold errorRow; rw [hg]; rfl),
      mapM_ok_map (g := fun p : ExtrinsicDiff × TermChange => rowCells f unit (g p.1.file) p.1.name p.2 ++
      if f.printTerms then [termCell p.2.old, termCell p.2.new, env.debugScope p.2.scope] else []) (fun e _ => by
        unfold changeRow; rw [hg]; rfl)]
    rfl
  · simp only [error_isSome_iff]
    rw [List.forall₂_map_right_iff]
    exact List.forall₂_same.2 fun e _ => rfl
  · refine forall₂_imp (termRows_forall fun e c => rowCells f unit (g e.file) e.name c ++
      if f.printTerms then [termCell c.old, termCell c.new, env.debugScope c.scope] else []) ?_
    rintro e he row ⟨c, hn, rfl⟩
    obtain ⟨w1, w2⟩ := hw e (List.mem_of_mem_filter he) c hn
    refine ⟨c, hn, rowFor_rowCells f unit _ _ c w1 w2, ?_⟩
    unfold TermCells
    cases f.printTerms with
    | false => rfl
    | true => exact ⟨_, _, rfl, equationCell_termCell _, equationCell_termCell _⟩

/-- C61: the table shows every entry exactly once. -/
theorem C61_count (env : PrintEnv) (f : FormatParams) (unit : Dimension) (diff : List ExtrinsicDiff) (hne : diff ≠ []) (g : Str → Str)
    (hg : Filters env f g) (hw : ∀ e ∈ diff, U128Weights e) :
    ∃ t, printChangesHuman env diff f unit = .ok (some t) ∧ t.rows.length = diff.length := by
  obtain ⟨header, errs, rows, h1, _, h3, h4⟩ := C61_table env f unit diff hne g hg hw
  refine ⟨_, h1, ?_⟩
  rw [List.length_append, ← h3.length_eq, ← h4.length_eq]
  have := List.length_eq_length_filter_add (l := diff) (fun e => (numbers e.change).isNone)
  rw [this]
  congr 3
  funext e
  cases numbers e.change <;> rfl

/-- C61: a `strip_path_prefix` that is not a regular expression makes the table panic. -/
theorem C61_panic_bad_regex (env : PrintEnv) (f : FormatParams) (unit : Dimension) (diff : List ExtrinsicDiff) (hne : diff ≠ [])
    (p : Str) (hp : f.stripPathPrefix = some p) (hr : env.strip p = none) : printChangesHuman env diff f unit = .panic := by
  have hf : ∀ path, filterPath env f path = .panic := by
    intro path
    unfold filterPath
    rw [hp]
    dsimp only
    rw [hr]
  unfold printChangesHuman
  rw [if_neg (by simpa using hne)]
  cases he : diff.filter (fun e => e.error.isSome) with
  | cons e l =>
    rw [mapM_cons]
    unfold errorRow
    rw [hf]
    rfl
  | nil =>
    rw [mapM_nil]
    cases ht : termRows diff with
    | cons q l =>
      dsimp only [Res.bind_ok]
      rw [mapM_cons]
      unfold changeRow
      rw [hf]
      rfl
    | nil =>
      exfalso
      cases diff with
      | nil => exact hne rfl
      | cons e l =>
        rw [List.filter_cons] at he
        unfold termRows at ht
        rw [List.filterMap_cons, term_eq_numbers] at ht
        rw [error_isSome_iff] at he
        cases hn : numbers e.change with
        | none => rw [hn] at he; simp at he
        | some c => rw [hn] at ht; simp at ht

/-- C61: an empty report shows nothing, in every supported format. -/
theorem C61_empty (env : PrintEnv) (f : FormatParams) (unit : Dimension) (h : f.format = .human ∨ f.format = .markdown ∨ f.format = .csv) :
    printChanges env [] f unit = .ok .nothing := by
  unfold printChanges
  rcases h with h | h | h <;> rw [h] <;> rfl

/-- C61: CSV says nothing about errors: removing them does not change the output (unless nothing is left). -/
theorem C61_csv_silent (env : PrintEnv) (f : FormatParams) (unit : Dimension) (diff : List ExtrinsicDiff)
    (h : (diff.filter fun e => (numbers e.change).isSome) ≠ []) :
    printChangesCsv env diff f unit = printChangesCsv env (diff.filter fun e => (numbers e.change).isSome) f unit := by
  have hd : diff ≠ [] := by rintro rfl; exact h rfl
  have e : termRows (diff.filter fun e => (numbers e.change).isSome) = termRows diff := by
    unfold termRows
    rw [List.filterMap_filter]
    congr 1
    funext e
    rw [term_eq_numbers]
    cases numbers e.change <;> rfl
  unfold printChangesCsv
  rw [List.isEmpty_eq_false_iff.2 hd, List.isEmpty_eq_false_iff.2 h, e]

/-- The formats `brief-human` and `json` are accepted on the command line and refused when printing. -/
theorem C61_unsupported (env : PrintEnv) (f : FormatParams) (unit : Dimension) (diff : List ExtrinsicDiff)
    (h : f.format = .briefHuman ∨ f.format = .json) : printChanges env diff f unit = .err (str% "Unsupported output format") := by
  unfold printChanges
  rcases h with h | h <;> rw [h]

theorem isFailed_eq (e : ExtrinsicDiff) : isFailed e = (numbers e.change).isNone := by
  unfold isFailed numbers
  cases e.change <;> rfl

/-- C61, both `compare` commands: the table printed for the computed differences has a row for every error, and for every other difference
that passes the filter; these stand in descending order of kind (changed, removed, added, unchanged) and percentage. -/
theorem C61_compare (env : PrintEnv) (f : FormatParams) (filter : FilterParams) (unit : Dimension) (diff : List ExtrinsicDiff)
    (hf : f.format = .human ∨ f.format = .markdown) (hne : filterChanges diff filter ≠ []) (g : Str → Str)
    (hg : Filters env f g) (hw : ∀ e ∈ diff, U128Weights e) :
    ∃ header errs rows failed shown, ∃ kept : ExtrinsicDiff → Bool, showDiff env f filter unit diff = .ok (.table ⟨header, errs ++ rows⟩ (decide (f.format = .markdown))) ∧
      failed.Perm (diff.filter fun e => (numbers e.change).isNone) ∧
      (∀ e, kept e = true ↔ Kept filter e) ∧ shown.Perm (diff.filter fun e => (numbers e.change).isSome && kept e) ∧
      shown.Pairwise (fun a b => sortKey b ≤ sortKey a) ∧
      List.Forall₂ (fun e row => row = [g e.file, e.name, str% "-", str% "-", str% "ERROR"]) failed errs ∧
      List.Forall₂ (fun e row => ∃ c, numbers e.change = some c ∧ RowFor unit f.noColor (g e.file) e.name c (row.take 5) ∧
          TermCells f.printTerms env.debugScope c (row.drop 5)) shown rows := by
  have hs := C37_sort_changes (filterChanges diff filter)
  have hp : (sortChanges (filterChanges diff filter)).reverse.Perm (filterChanges diff filter) := (List.reverse_perm _).trans hs.perm
  have hne' : (sortChanges (filterChanges diff filter)).reverse ≠ [] := by
    intro h
    rw [h] at hp
    exact hne (List.nil_perm.1 hp)
  obtain ⟨header, errs, rows, h1, _, h3, h4⟩ := C61_table env f unit _ hne' g hg (fun e he => hw e (List.mem_of_mem_filter (hp.subset he)))
  refine ⟨header, errs, rows, _, _, keepChange filter, ?_, ?_, fun _ => keepChange_iff, ?_, ?_, h3, h4⟩
  · unfold showDiff printChanges
    rcases hf with hf | hf <;> rw [hf] <;> dsimp only <;> rw [h1] <;> rfl
  · refine (hp.filter _).trans (.of_eq ?_)
    unfold filterChanges
    rw [List.filter_filter]
    apply List.filter_congr
    intro e _
    cases h : e.change with
    | failed m => simp [numbers, keepChange, h]
    | changed c => simp [numbers]
    | warning c m => simp [numbers]
  · refine (hp.filter _).trans (.of_eq ?_)
    unfold filterChanges
    rw [List.filter_filter]
  · obtain ⟨fl, r, e, h5, h6, h7⟩ := hs.split
    rw [e, List.filter_reverse, List.pairwise_reverse, List.filter_append]
    rw [List.filter_eq_nil_iff.2 (fun x hx => by
      have := h5 x hx
      rw [isFailed_eq] at this
      simpa using this), List.nil_append]
    exact h7.filter _

example : ∃ t, printChangesHuman exPrintEnv exCliReport ⟨.human, false, true, none⟩ .time = .ok (some t) ∧ t.rows.length = 3 :=
  C61_count exPrintEnv ⟨.human, false, true, none⟩ .time exCliReport (by simp [exCliReport]) id (filters_none _ _ rfl) exCliReport_u128

example : showDiff exPrintEnv ⟨.markdown, false, true, none⟩ ⟨.fin 0, none, none, none⟩ .time exCliReport = .ok (.table
    ⟨[str% "File", str% "Extrinsic", str% "Old", str% "New", str% "Change [%]"],
     [[str% "balances.rs", str% "burn", str% "-", str% "-", str% "ERROR"],
      [str% "balances.rs", str% "transfer", str% "1.00ns", str% "1.50ns", str% "+50.00"],
      [str% "assets.rs", str% "mint", [], str% "7ps", str% "Added"]]⟩ true) := by decide +kernel

/-! ### C67 -/

/-- C67, command line: the number printed for a changed row is within half a hundredth, and the rounding error of binary64, of the exact
relative change in percent, and has its sign. -/
theorem C67_cli (o n : ℕ) (h0 : 0 < o) (ho : o < 2 ^ 53) (hn : n < 2 ^ 53) :
    ∃ pad sign num v, colorPercent (percent o n) .changed true = List.replicate pad ' ' ++ [sign] ++ num ∧
      (sign = '-' ↔ n < o) ∧ (sign = '+' ↔ o ≤ n) ∧ readDec num = some v ∧
      |v - (|100 * ((n : ℚ) - o) / o|)| ≤ 1 / 200 + (100 * (n : ℚ) / o + 100) / 2 ^ 50 := by
  have hlt : (2 : ℕ) ^ 53 < 2 ^ 128 := by norm_num
  obtain ⟨p, hp, hacc⟩ := C19_accurate o n h0 (lt_trans ho hlt) (lt_trans hn hlt)
  obtain ⟨s1, _⟩ := percent_sign_exact ho hn
  have ht := C59_cli_text (percent o n) .changed
  rw [hp] at ht s1 ⊢
  obtain ⟨pad, num, ht, ⟨v, hv, _, hd⟩, _⟩ := ht
  simp only [F64.lt, decide_eq_true_eq] at s1
  refine ⟨pad, _, num, v, ht, ?_, ?_, hv, ?_⟩
  · rw [← s1]; by_cases h : p < 0
    · simp [h]
    · simp [h]
  · rw [← not_lt, ← s1]; by_cases h : p < 0
    · simp [h]
    · simp [h]
  · have hop : (0 : ℚ) < o := by exact_mod_cast h0
    have eqn : 100 * ((n : ℚ) - o) / o = 100 * (n : ℚ) / o - 100 := by field_simp
    rw [eqn]
    have h1 := abs_abs_sub_abs_le_abs_sub p (100 * (n : ℚ) / o - 100)
    rw [abs_le] at hd h1 ⊢
    constructor <;> linarith [hd.1, hd.2, h1.1, h1.2]

example : ∃ pad sign num v, colorPercent (percent 3 4) .changed true = List.replicate pad ' ' ++ [sign] ++ num ∧
      (sign = '-' ↔ 4 < 3) ∧ (sign = '+' ↔ 3 ≤ 4) ∧ readDec num = some v ∧
      |v - (|100 * (((4 : ℕ) : ℚ) - (3 : ℕ)) / (3 : ℕ)|)| ≤ 1 / 200 + (100 * ((4 : ℕ) : ℚ) / (3 : ℕ) + 100) / 2 ^ 50 :=
  C67_cli 3 4 (by norm_num) (by norm_num) (by norm_num)
example : colorPercent (percent 3 4) .changed true = str% "+33.33" := by decide +kernel

end Swc
