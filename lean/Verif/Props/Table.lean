/-
C114: the text that is printed.
-/
import Verif.Model.Table
import Verif.Spec.Table
import Verif.Props.CliOut
import Verif.Props.Branches
import Verif.Props.Commands
import Verif.Model.Ending

namespace Swc

open Spec F64

namespace TableText

/-- A cell as it stands in a line: a space, the text, and at least one space. -/
def PartOf (c p : Str) : Prop := ∃ k, p = [' '] ++ c ++ List.replicate (k + 1) ' '

/-- A line with cells. -/
def IsRow (cells : List Str) (line : Str) : Prop :=
  ∃ parts, List.Forall₂ PartOf cells parts ∧ line = ['|'] ++ ['|'].intercalate parts ++ ['|']

/-- A line without cells. -/
structure IsRule (l : Str) : Prop where
  line : '\n' ∉ l
  colour : Swc.esc ∉ l
  cells : hasCells l = false

/-- What a line is. -/
def LineIs (k : Option (List Str)) (line : Str) : Prop :=
  match k with
  | none => IsRule line
  | some cells => IsRow cells line

theorem cut_split (sep : Char) (s : Str) : cut sep s = splitChar sep s := by
  induction s with
  | nil => rfl
  | cons c s ih =>
    rw [cut, splitChar, ih]
    split
    · rfl
    · cases splitChar sep s <;> rfl

/-! #### Drawing -/

theorem part_pad (wd : Str → ℕ) (w : ℕ) (c : Str) : PartOf c (padCell wd w c) :=
  ⟨w - wd c, by simp [padCell, List.replicate_succ']⟩

theorem part_blank (w : ℕ) : PartOf [] (List.replicate (w + 2) ' ') := ⟨w, by simp [List.replicate_succ]⟩

theorem filled_length {n : ℕ} {row : List Str} (h : row.length ≤ n) : (filled n row).length = n := by simp [filled]; omega

theorem filled_get (n : ℕ) (row : List Str) (j : ℕ) (h : j < (filled n row).length) : (filled n row)[j] = row[j]?.getD [] := by
  unfold filled at h ⊢
  by_cases hj : j < row.length
  · rw [List.getElem_append_left hj]; simp [hj]
  · rw [List.getElem_append_right (by omega)]; simp [hj]

theorem row_is (wd : Str → ℕ) (ws : List ℕ) (row : List Str) (hl : row.length ≤ ws.length) (hn : ∀ c ∈ row, '\n' ∉ c) :
    rowLines wd ws row = [rowLine wd ws row 0] ∧ IsRow (filled ws.length row) (rowLine wd ws row 0) := by
  constructor
  · have : row.foldr (fun c n => max (splitChar '\n' c).length n) 1 = 1 := by
      clear hl
      induction row with
      | nil => rfl
      | cons c row ih =>
        rw [List.foldr_cons, ih fun c hc => hn c (List.mem_cons_of_mem _ hc), splitChar_no (hn c List.mem_cons_self)]
        rfl
    rw [rowLines, this]; rfl
  · refine ⟨_, ?_, rfl⟩
    rw [List.forall₂_iff_get]
    refine ⟨by simp [filled_length hl], fun j h1 h2 => ?_⟩
    simp only [List.get_eq_getElem, List.getElem_mapIdx, filled_get]
    cases hr : row[j]? with
    | none => exact part_blank _
    | some c =>
      simp only [Option.bind_some, Option.getD_some, splitChar_no (hn c (List.mem_of_getElem? hr))]
      exact part_pad _ _ _

theorem mem_intercalate {sep : Str} {ls : List Str} {c : Char} (h : c ∈ sep.intercalate ls) : c ∈ sep ∨ ∃ l ∈ ls, c ∈ l := by
  induction ls with
  | nil => simp at h
  | cons l ls ih =>
    cases ls with
    | nil => exact .inr ⟨l, by simp, by simpa using h⟩
    | cons l' ls =>
      rw [List.intercalate_cons_cons] at h
      rcases List.mem_append.1 h with h | h
      · rcases List.mem_append.1 h with h | h
        · exact .inr ⟨l, by simp, h⟩
        · exact .inl h
      · rcases ih h with h | ⟨k, hk, h⟩
        · exact .inl h
        · exact .inr ⟨k, by simp [hk], h⟩

theorem rule_mem {r : TableRule} {ws : List ℕ} {c : Char} (h : c ∈ r.draw ws) : c = r.left ∨ c = r.fill ∨ c = r.mid ∨ c = r.right := by
  unfold TableRule.draw at h
  simp only [List.mem_append, List.mem_singleton] at h
  rcases h with (h | h) | h
  · exact .inl h
  · rcases mem_intercalate h with h | ⟨l, hl, h⟩
    · exact .inr (.inr (.inl (List.mem_singleton.1 h)))
    · obtain ⟨w, _, rfl⟩ := List.mem_map.1 hl
      exact .inr (.inl (List.eq_of_mem_replicate h))
  · exact .inr (.inr (.inr h))

theorem rule_is {r : TableRule} {ws : List ℕ} (hw : ws ≠ []) (h1 : ∀ c ∈ [r.left, r.fill, r.mid, r.right], c ≠ '\n' ∧ c ≠ esc) (h2 : r.fill ≠ ' ') :
    IsRule (r.draw ws) := by
  have hm : ∀ c ∈ r.draw ws, c ≠ '\n' ∧ c ≠ esc := fun c hc => h1 c (by
    rcases rule_mem hc with h | h | h | h <;> simp [h])
  refine ⟨fun h => (hm _ h).1 rfl, fun h => (hm _ h).2 rfl, ?_⟩
  cases ws with
  | nil => exact absurd rfl hw
  | cons w ws =>
    have : ∃ t, r.draw (w :: ws) = r.left :: r.fill :: t := by
      unfold TableRule.draw
      cases ws with
      | nil => exact ⟨_, by simp [List.replicate_succ]; rfl⟩
      | cons w' ws => exact ⟨_, by simp [List.intercalate_cons_cons, List.replicate_succ]; rfl⟩
    obtain ⟨t, ht⟩ := this
    rw [ht]
    simp [hasCells, List.isPrefixOf, Ne.symm h2]

/-! #### Reading -/

theorem cut_parts {sep : Char} {parts : List Str} (h0 : parts ≠ []) (h : ∀ p ∈ parts, sep ∉ p) : cut sep ([sep].intercalate parts) = parts := by
  induction parts with
  | nil => exact absurd rfl h0
  | cons p ps ih =>
    have hp : ∀ c ∈ p, c ≠ sep := fun c hc e => h p (by simp) (e ▸ hc)
    cases ps with
    | nil =>
      rw [show [sep].intercalate [p] = p by simp]
      exact cut_clean hp
    | cons q ps =>
      rw [List.intercalate_cons_cons, List.append_assoc, List.singleton_append, cut_append _ hp, ih (by simp) fun r hr => h r (List.mem_cons_of_mem _ hr)]

theorem stripEnd_part {c : Str} (h : c.getLast? ≠ some ' ') (k : ℕ) : stripEnd (c ++ List.replicate k ' ') = c := by
  unfold stripEnd
  rw [List.reverse_append, List.reverse_replicate, List.dropWhile_append]
  have : (List.replicate k ' ').dropWhile (fun x => decide (x = ' ')) = [] := by
    induction k with
    | zero => rfl
    | succ k ih => rw [List.replicate_succ, List.dropWhile_cons_of_pos (by simp), ih]
  rw [this]
  simp only [List.isEmpty_nil, if_true]
  rcases List.eq_nil_or_concat' c with rfl | ⟨l, x, rfl⟩
  · rfl
  · have hx : x ≠ ' ' := by simpa using h
    simp [hx]

theorem part_free {c p : Str} (hp : PartOf c p) {x : Char} (hx : x ∉ c) (hs : x ≠ ' ') : x ∉ p := by
  obtain ⟨k, rfl⟩ := hp
  simp only [List.mem_append, List.mem_singleton, List.mem_replicate, not_or, not_and]
  exact ⟨⟨hs, hx⟩, fun _ => hs⟩

theorem parts_free {cells parts : List Str} (hp : List.Forall₂ PartOf cells parts) {x : Char} (hx : ∀ c ∈ cells, x ∉ c) (hs : x ≠ ' ') :
    ∀ p ∈ parts, x ∉ p := by
  induction hp with
  | nil => simp
  | cons h _ ih =>
    intro p hp
    rcases List.mem_cons.1 hp with rfl | hp
    · exact part_free h (hx _ (by simp)) hs
    · exact ih (fun c hc => hx c (List.mem_cons_of_mem _ hc)) p hp

theorem row_read {cells : List Str} {line : Str} (h : IsRow cells line) (h0 : cells ≠ []) (hc : ∀ c ∈ cells, CleanCell c) :
    readRow line = cells ∧ hasCells line = true ∧ '\n' ∉ line := by
  obtain ⟨parts, hp, rfl⟩ := h
  have hb := parts_free hp (x := '|') (fun c h => (hc c h).bar) (by decide)
  have hn := parts_free hp (x := '\n') (fun c h => (hc c h).line) (by decide)
  have hne : parts ≠ [] := by
    rintro rfl
    cases hp
    exact h0 rfl
  refine ⟨?_, ?_, ?_⟩
  · have e : cut '|' (['|'] ++ ['|'].intercalate parts ++ ['|']) = [] :: (parts ++ [[]]) := by
      have : ['|'] ++ ['|'].intercalate parts ++ ['|'] = ['|'].intercalate ([] :: (parts ++ [[]])) := by
        cases parts with
        | nil => exact absurd rfl hne
        | cons p ps =>
          rw [show p :: ps ++ [[]] = p :: (ps ++ [[]]) from rfl, List.intercalate_cons_cons (l := [])]
          simp only [List.nil_append, List.append_assoc]
          congr 1
          clear hp hb hn hne
          induction ps generalizing p with
          | nil => simp [List.intercalate_cons_cons]
          | cons q ps ih =>
            rw [List.intercalate_cons_cons, List.cons_append, List.intercalate_cons_cons]
            simp only [List.append_assoc]
            rw [← ih]
      rw [this, cut_parts (by simp)]
      intro p hp
      rcases List.mem_cons.1 hp with rfl | hp
      · simp
      · rcases List.mem_append.1 hp with hp | hp
        · exact hb p hp
        · rw [List.mem_singleton.1 hp]; simp
    rw [readRow, e, List.drop_succ_cons, List.drop_zero, List.dropLast_concat]
    clear hb hn hne h0 e
    induction hp with
    | nil => rfl
    | cons h _ ih =>
      rw [List.map_cons, ih fun c h => hc c (List.mem_cons_of_mem _ h)]
      congr 1
      obtain ⟨k, rfl⟩ := h
      rw [List.append_assoc, List.singleton_append, List.drop_succ_cons, List.drop_zero]
      exact stripEnd_part (hc _ (by simp)).last _
  · cases hp with
    | nil => exact absurd rfl h0
    | cons h t =>
      obtain ⟨k, rfl⟩ := h
      cases t with
      | nil => simp [hasCells, List.isPrefixOf]
      | cons h t => simp [hasCells, List.isPrefixOf, List.intercalate_cons_cons]
  · intro h
    simp only [List.mem_append, List.mem_singleton] at h
    rcases h with (h | h) | h
    · revert h; decide
    · rcases mem_intercalate h with h | ⟨l, hl, h⟩
      · revert h; decide
      · exact hn l hl h
    · revert h; decide

/-- Reading lines of known kinds. -/
theorem lines_read {kinds : List (Option (List Str))} {lines : List Str} (h : List.Forall₂ LineIs kinds lines) (hne : lines ≠ [])
    (hk : ∀ cells, some cells ∈ kinds → cells ≠ [] ∧ ∀ c ∈ cells, CleanCell c) :
    readTable (['\n'].intercalate lines) = kinds.filterMap id := by
  have hl : ∀ l ∈ lines, '\n' ∉ l := by
    clear hne
    induction h with
    | nil => simp
    | cons h _ ih =>
      rename_i k l ks ls _
      intro x hx
      rcases List.mem_cons.1 hx with rfl | hx
      · cases k with
        | none => exact IsRule.line h
        | some cells =>
          obtain ⟨h0, hc⟩ := hk cells (by simp)
          exact (row_read h h0 hc).2.2
      · exact ih (fun cells hc => hk cells (List.mem_cons_of_mem _ hc)) x hx
  rw [readTable, cut_parts hne hl]
  clear hl hne
  induction h with
  | nil => rfl
  | cons h _ ih =>
    rename_i k l ks ls _
    have ih := ih fun cells hc => hk cells (List.mem_cons_of_mem _ hc)
    cases k with
    | none =>
      rw [List.filter_cons_of_neg (by rw [IsRule.cells h]; simp), ih]
      rfl
    | some cells =>
      obtain ⟨h0, hc⟩ := hk cells (by simp)
      obtain ⟨h1, h2, _⟩ := row_read h h0 hc
      rw [List.filter_cons_of_pos h2, List.map_cons, h1, ih]
      rfl

/-! #### The lines of a table -/

/-- The rows with the lines between them. -/
def between (b : Bool) : List (List Str) → List (Option (List Str))
  | [] => []
  | [row] => [some row]
  | row :: rows => some row :: (if b then [none] else []) ++ between b rows

theorem between_filter (b : Bool) (rows : List (List Str)) : (between b rows).filterMap id = rows := by
  induction rows with
  | nil => rfl
  | cons r rows ih =>
    cases rows with
    | nil => rfl
    | cons r' rows => cases b <;> simp [between] at ih ⊢ <;> exact ih

theorem between_mem {b : Bool} {rows : List (List Str)} {r : List Str} : some r ∈ between b rows ↔ r ∈ rows := by
  induction rows with
  | nil => simp [between]
  | cons r' rows ih =>
    cases rows with
    | nil => simp [between]
    | cons r'' rows => cases b <;> simp [between] at ih ⊢ <;> rw [ih]

theorem between_length (b : Bool) (rows : List (List Str)) :
    (between b rows).length = if b then 2 * rows.length - 1 else rows.length := by
  induction rows with
  | nil => cases b <;> rfl
  | cons r rows ih =>
    cases rows with
    | nil => cases b <;> rfl
    | cons r' rows => cases b <;> simp [between] at ih ⊢ <;> omega

/-- What the lines of a table are. -/
def kindsOf (markdown : Bool) (n : ℕ) (t : TableOut) : List (Option (List Str)) :=
  if markdown then some (filled n t.header) :: none :: between false (t.rows.map (filled n))
  else none :: some (filled n t.header) :: none :: between true (t.rows.map (filled n)) ++ [none]

theorem body_is {wd : Str → ℕ} {r : Option TableRule} {ws : List ℕ} {rows : List (List Str)} (hr : ∀ x, r = some x → IsRule (x.draw ws))
    (hl : ∀ row ∈ rows, row.length ≤ ws.length) (hn : ∀ row ∈ rows, ∀ c ∈ row, '\n' ∉ c) :
    List.Forall₂ LineIs (between r.isSome (rows.map (filled ws.length))) (bodyLines wd r ws rows) := by
  induction rows with
  | nil => exact .nil
  | cons row rows ih =>
    have ih := ih (fun x hx => hl x (List.mem_cons_of_mem _ hx)) fun x hx => hn x (List.mem_cons_of_mem _ hx)
    obtain ⟨h1, h2⟩ := row_is wd ws row (hl row (by simp)) (hn row (by simp))
    cases rows with
    | nil =>
      rw [bodyLines, h1]
      exact .cons h2 .nil
    | cons row' rows =>
      rw [bodyLines, h1]
      · cases r with
        | none => exact .cons h2 ih
        | some x => exact .cons h2 (.cons (hr x rfl) ih)
      · simp

theorem le_columns {t : TableOut} : ∀ row ∈ t.header :: t.rows, row.length ≤ t.columns := by
  intro row h
  unfold TableOut.columns
  generalize t.header :: t.rows = rows at h
  induction rows with
  | nil => cases h
  | cons r rows ih =>
    rw [List.foldr_cons]
    rcases List.mem_cons.1 h with rfl | h
    · exact le_max_left _ _
    · exact (ih h).trans (le_max_right _ _)

theorem widths_length (wd : Str → ℕ) (t : TableOut) : (t.widths wd).length = t.columns := by simp [TableOut.widths]

/-- The layout of a table. -/
theorem lines_are (wd : Str → ℕ) (t : TableOut) (markdown : Bool) (h0 : t.header ≠ []) (hn : ∀ row ∈ t.header :: t.rows, ∀ c ∈ row, '\n' ∉ c) :
    List.Forall₂ LineIs (kindsOf markdown t.columns t) (t.lines wd (if markdown then asciiMarkdown else asciiFull)) := by
  have hw : t.widths wd ≠ [] := by
    intro h
    have := le_columns (t := t) t.header (by simp)
    rw [← widths_length wd, h] at this
    exact h0 (List.length_eq_zero_iff.1 (Nat.le_zero.1 this))
  have hl : ∀ row ∈ t.header :: t.rows, row.length ≤ (t.widths wd).length := fun row h => by
    rw [widths_length]; exact le_columns row h
  obtain ⟨h1, h2⟩ := row_is wd (t.widths wd) t.header (hl _ (by simp)) (hn _ (by simp))
  have hl' := fun row h => hl row (List.mem_cons_of_mem _ h)
  have hn' := fun row h => hn row (List.mem_cons_of_mem _ h)
  unfold TableOut.lines
  cases markdown with
  | true =>
    have hb := body_is (wd := wd) (r := asciiMarkdown.between) (ws := t.widths wd) (rows := t.rows) (fun x h => nomatch h) hl' hn'
    rw [widths_length] at hb h2
    simp only [if_true, kindsOf, h1]
    rw [show ((asciiMarkdown.top.map (·.draw (t.widths wd))).toList ++ [rowLine wd (t.widths wd) t.header 0]
        ++ (asciiMarkdown.header.map (·.draw (t.widths wd))).toList ++ bodyLines wd asciiMarkdown.between (t.widths wd) t.rows
        ++ (asciiMarkdown.bottom.map (·.draw (t.widths wd))).toList) = rowLine wd (t.widths wd) t.header 0 ::
          TableRule.draw ⟨'|', '-', '|', '|'⟩ (t.widths wd) :: bodyLines wd asciiMarkdown.between (t.widths wd) t.rows by simp [asciiMarkdown]]
    exact .cons h2 (.cons (rule_is hw (by decide) (by decide)) hb)
  | false =>
    have hr : IsRule (TableRule.draw ⟨'+', '-', '+', '+'⟩ (t.widths wd)) := rule_is hw (by decide) (by decide)
    have hb := body_is (wd := wd) (r := asciiFull.between) (ws := t.widths wd) (rows := t.rows)
      (fun x h => by cases h; exact rule_is hw (by decide) (by decide)) hl' hn'
    rw [widths_length] at hb h2
    simp only [Bool.false_eq_true, if_false, kindsOf, h1]
    rw [show ((asciiFull.top.map (·.draw (t.widths wd))).toList ++ [rowLine wd (t.widths wd) t.header 0]
        ++ (asciiFull.header.map (·.draw (t.widths wd))).toList ++ bodyLines wd asciiFull.between (t.widths wd) t.rows
        ++ (asciiFull.bottom.map (·.draw (t.widths wd))).toList) = TableRule.draw ⟨'+', '-', '+', '+'⟩ (t.widths wd) ::
          rowLine wd (t.widths wd) t.header 0 :: TableRule.draw ⟨'+', '=', '=', '+'⟩ (t.widths wd) ::
          (bodyLines wd asciiFull.between (t.widths wd) t.rows ++ [TableRule.draw ⟨'+', '-', '+', '+'⟩ (t.widths wd)]) by simp [asciiFull]]
    exact .cons hr (.cons h2 (.cons (rule_is hw (by decide) (by decide)) (List.rel_append hb (.cons hr .nil))))

theorem kinds_filter (markdown : Bool) (n : ℕ) (t : TableOut) :
    (kindsOf markdown n t).filterMap id = (t.header :: t.rows).map (filled n) := by
  cases markdown
  · simp [kindsOf]
    exact between_filter _ _
  · simp [kindsOf]
    exact between_filter _ _

theorem kinds_mem {markdown : Bool} {n : ℕ} {t : TableOut} {cells : List Str} (h : some cells ∈ kindsOf markdown n t) :
    ∃ row ∈ t.header :: t.rows, cells = filled n row := by
  have : cells ∈ (kindsOf markdown n t).filterMap id := by simpa using h
  rw [kinds_filter] at this
  obtain ⟨row, h1, h2⟩ := List.mem_map.1 this
  exact ⟨row, h1, h2.symm⟩

theorem filled_clean {n : ℕ} {row : List Str} {P : Str → Prop} (h0 : P []) (h : ∀ c ∈ row, P c) : ∀ c ∈ filled n row, P c := by
  intro c hc
  rcases List.mem_append.1 hc with hc | hc
  · exact h c hc
  · rw [List.eq_of_mem_replicate hc]; exact h0

theorem clean_nil : CleanCell [] := ⟨by simp, by simp, by simp⟩

theorem filled_ne {t : TableOut} (h0 : t.header ≠ []) {row : List Str} (h : row ∈ t.header :: t.rows) : filled t.columns row ≠ [] := by
  intro e
  have h1 := filled_length (le_columns row h)
  rw [e] at h1
  have h2 := le_columns (t := t) t.header (by simp)
  rw [← h1] at h2
  exact h0 (List.length_eq_zero_iff.1 (Nat.le_zero.1 h2))

end TableText

open TableText

/-- C114: the cells of a table can be read off its text, in both formats, whatever is taken as the width of a text. -/
theorem C114_read (wd : Str → ℕ) (t : TableOut) (markdown : Bool) (h0 : t.header ≠ []) (hc : ∀ row ∈ t.header :: t.rows, ∀ c ∈ row, CleanCell c) :
    readTable (t.text wd markdown) = (t.header :: t.rows).map (filled t.columns) := by
  have h := lines_are wd t markdown h0 fun row hr c h => (hc row hr c h).line
  rw [← kinds_filter markdown]
  refine lines_read h ?_ ?_
  · intro e
    have := h.length_eq
    rw [e] at this
    cases markdown <;> simp [kindsOf] at this
  · intro cells hk
    obtain ⟨row, hr, rfl⟩ := kinds_mem hk
    exact ⟨filled_ne h0 hr, filled_clean clean_nil (hc row hr)⟩

/-- C114: the number of lines: in Markdown one for each row, one for the header, and one below it; otherwise there is also a line above every row and
one at the end. -/
theorem C114_count (wd : Str → ℕ) (t : TableOut) (markdown : Bool) (h0 : t.header ≠ []) (hr : t.rows ≠ [])
    (hc : ∀ row ∈ t.header :: t.rows, ∀ c ∈ row, CleanCell c) :
    (cut '\n' (t.text wd markdown)).length = if markdown then t.rows.length + 2 else 2 * t.rows.length + 3 := by
  have hn := fun row hr c h => (hc row hr c h).line
  have h := lines_are wd t markdown h0 hn
  have hne : t.lines wd (if markdown then asciiMarkdown else asciiFull) ≠ [] := by
    intro e
    have := h.length_eq
    rw [e] at this
    cases markdown <;> simp [kindsOf] at this
  have hl : ∀ l ∈ t.lines wd (if markdown then asciiMarkdown else asciiFull), '\n' ∉ l := by
    intro l hl
    obtain ⟨k, hk, hkl⟩ : ∃ k ∈ kindsOf markdown t.columns t, LineIs k l := by
      generalize kindsOf markdown t.columns t = ks at h
      generalize t.lines wd _ = ls at h hl
      induction h with
      | nil => cases hl
      | cons h _ ih =>
        rcases List.mem_cons.1 hl with rfl | hl
        · exact ⟨_, by simp, h⟩
        · obtain ⟨k, h1, h2⟩ := ih hl
          exact ⟨k, List.mem_cons_of_mem _ h1, h2⟩
    cases k with
    | none => exact hkl.line
    | some cells =>
      obtain ⟨row, hr, rfl⟩ := kinds_mem hk
      exact (row_read hkl (filled_ne h0 hr) (filled_clean clean_nil (hc row hr))).2.2
  rw [TableOut.text, cut_parts hne hl, ← h.length_eq]
  have := List.length_pos_iff.2 hr
  cases markdown <;> simp [kindsOf, between_length]
  omega

/-- C114: two tables with the same number of columns and the same text have the same cells, except that a missing cell looks like an empty one. -/
theorem C114_injective (wd : Str → ℕ) (t t' : TableOut) (markdown : Bool) (h0 : t.header ≠ []) (h0' : t'.header ≠ [])
    (hc : ∀ row ∈ t.header :: t.rows, ∀ c ∈ row, CleanCell c) (hc' : ∀ row ∈ t'.header :: t'.rows, ∀ c ∈ row, CleanCell c)
    (h : t.text wd markdown = t'.text wd markdown) :
    (t.header :: t.rows).map (filled t.columns) = (t'.header :: t'.rows).map (filled t'.columns) := by
  rw [← C114_read wd t markdown h0 hc, ← C114_read wd t' markdown h0' hc', h]

/-- C114: a column is as wide as its widest line, and at least one. -/
theorem C114_width (wd : Str → ℕ) (t : TableOut) (j : ℕ) (hj : j < t.columns) :
    (∀ row ∈ t.header :: t.rows, ∀ c, row[j]? = some c → ∀ l ∈ cut '\n' c, wd l ≤ t.width wd j) ∧ 1 ≤ t.width wd j ∧
      (t.width wd j = 1 ∨ ∃ row ∈ t.header :: t.rows, ∃ c, row[j]? = some c ∧ ∃ l ∈ cut '\n' c, wd l = t.width wd j) := by
  have hcw : ∀ c : Str, 1 ≤ cellWidth wd c ∧ (∀ l ∈ cut '\n' c, wd l ≤ cellWidth wd c) ∧
      (cellWidth wd c = 1 ∨ ∃ l ∈ cut '\n' c, wd l = cellWidth wd c) := by
    intro c
    unfold cellWidth
    rw [← cut_split]
    generalize cut '\n' c = ls
    induction ls with
    | nil => simp
    | cons l ls ih =>
      obtain ⟨h1, h2, h3⟩ := ih
      rw [List.foldr_cons]
      refine ⟨h1.trans (le_max_right _ _), ?_, ?_⟩
      · intro x hx
        rcases List.mem_cons.1 hx with rfl | hx
        · exact le_max_left _ _
        · exact (h2 x hx).trans (le_max_right _ _)
      · rcases max_choice (wd l) (ls.foldr (fun l n => max (wd l) n) 1) with e | e
        · exact .inr ⟨l, by simp, e.symm⟩
        · rw [e]
          rcases h3 with h3 | ⟨x, hx, h3⟩
          · exact .inl h3
          · exact .inr ⟨x, List.mem_cons_of_mem _ hx, h3⟩
  have hex : ∃ row ∈ t.header :: t.rows, j < row.length := by
    unfold TableOut.columns at hj
    generalize t.header :: t.rows = rows at hj
    induction rows with
    | nil => simp at hj
    | cons r rows ih =>
      rw [List.foldr_cons] at hj
      rcases lt_max_iff.1 hj with h | h
      · exact ⟨r, by simp, h⟩
      · obtain ⟨x, h1, h2⟩ := ih h
        exact ⟨x, List.mem_cons_of_mem _ h1, h2⟩
  unfold TableOut.width
  generalize t.header :: t.rows = rows at hex
  have key : (∀ row ∈ rows, ∀ c, row[j]? = some c → cellWidth wd c ≤ rows.foldr (fun r n => max (match r[j]? with | some c => cellWidth wd c | none => 0) n) 0) ∧
      (rows.foldr (fun r n => max (match r[j]? with | some c => cellWidth wd c | none => 0) n) 0 = 0 ∨
        ∃ row ∈ rows, ∃ c, row[j]? = some c ∧ cellWidth wd c = rows.foldr (fun r n => max (match r[j]? with | some c => cellWidth wd c | none => 0) n) 0) := by
    clear hex
    induction rows with
    | nil => simp
    | cons r rows ih =>
      obtain ⟨h1, h2⟩ := ih
      rw [List.foldr_cons]
      generalize rows.foldr (fun r n => max (match r[j]? with | some c => cellWidth wd c | none => 0) n) 0 = m at h1 h2
      constructor
      · intro row hr c hc
        rcases List.mem_cons.1 hr with rfl | hr
        · rw [hc]; exact le_max_left _ _
        · exact (h1 row hr c hc).trans (le_max_right _ _)
      · cases hrj : r[j]? with
        | none =>
          dsimp only
          rw [Nat.zero_max]
          rcases h2 with h2 | ⟨row, hr, c, h3, h4⟩
          · exact .inl h2
          · exact .inr ⟨row, List.mem_cons_of_mem _ hr, c, h3, h4⟩
        | some c =>
          dsimp only
          rcases max_choice (cellWidth wd c) m with e | e
          · exact .inr ⟨r, by simp, c, hrj, e.symm⟩
          · rw [e]
            rcases h2 with h2 | ⟨row, hr, c, h3, h4⟩
            · exact .inl h2
            · exact .inr ⟨row, List.mem_cons_of_mem _ hr, c, h3, h4⟩
  generalize rows.foldr (fun r n => max (match r[j]? with | some c => cellWidth wd c | none => 0) n) 0 = m at key
  obtain ⟨k1, k2⟩ := key
  obtain ⟨row, hr, hl⟩ := hex
  have hm : 1 ≤ m := (hcw row[j]).1.trans (k1 row hr _ (List.getElem?_eq_getElem hl))
  refine ⟨fun row hr c hc l hl => ((hcw c).2.1 l hl).trans (k1 row hr c hc), hm, ?_⟩
  rcases k2 with k2 | ⟨row, hr, c, h3, h4⟩
  · omega
  · rcases (hcw c).2.2 with h5 | ⟨l, hl, h5⟩
    · exact .inl (h4 ▸ h5)
    · exact .inr ⟨row, hr, c, h3, l, hl, h5.trans h4⟩

/-! #### Alignment -/

namespace TableText

/-- The length of all lines of a table with these widths of columns. -/
def lineLength (ws : List ℕ) : ℕ := 1 + (ws.map (· + 3)).sum

theorem length_parts {parts : List Str} {ws : List ℕ} (h : List.Forall₂ (fun p w => p.length = w + 2) parts ws) (x : Char) (h0 : ws ≠ []) :
    ([x].intercalate parts).length + 1 = (ws.map (· + 3)).sum := by
  induction h with
  | nil => exact absurd rfl h0
  | cons h t ih =>
    cases t with
    | nil => simp [h]
    | cons h' t =>
      have ih := ih (by simp)
      rw [List.intercalate_cons_cons]
      simp only [List.length_append, List.length_cons, List.length_nil, List.map_cons, List.sum_cons] at ih ⊢
      omega

theorem length_rule (r : TableRule) {ws : List ℕ} (h0 : ws ≠ []) : (r.draw ws).length = lineLength ws := by
  have : List.Forall₂ (fun (p : Str) w => p.length = w + 2) (ws.map fun w => List.replicate (w + 2) r.fill) ws := by
    rw [List.forall₂_map_left_iff]
    exact List.forall₂_same.2 fun w _ => by simp
  have := length_parts this r.mid h0
  unfold TableRule.draw lineLength
  simp only [List.length_append, List.length_cons, List.length_nil]
  omega

theorem length_row {wd : Str → ℕ} {ws : List ℕ} (h0 : ws ≠ []) {row : List Str}
    (hw : ∀ (j w : ℕ) (c : Str), ws[j]? = some w → row[j]? = some c → ∀ l ∈ splitChar '\n' c, wd l = l.length ∧ l.length ≤ w) (i : ℕ) :
    (rowLine wd ws row i).length = lineLength ws := by
  obtain ⟨parts, hp, e⟩ : ∃ parts : List Str, List.Forall₂ (fun (p : Str) w => p.length = w + 2) parts ws ∧
      rowLine wd ws row i = ['|'] ++ ['|'].intercalate parts ++ ['|'] := by
    refine ⟨_, ?_, rfl⟩
    rw [List.forall₂_iff_get]
    refine ⟨by simp, fun j h1 h2 => ?_⟩
    simp only [List.get_eq_getElem, List.getElem_mapIdx]
    cases hr : row[j]? with
    | none => simp
    | some c =>
      rw [Option.bind_some]
      cases hl : (splitChar '\n' c)[i]? with
      | none => simp
      | some l =>
        obtain ⟨h3, h4⟩ := hw j _ c (List.getElem?_eq_getElem h2) hr l (List.mem_of_getElem? hl)
        simp only [padCell, h3, List.length_append, List.length_cons, List.length_nil, List.length_replicate]
        omega
  have := length_parts hp '|' h0
  rw [e, lineLength]
  simp only [List.length_append, List.length_cons, List.length_nil]
  omega

theorem width_get {wd : Str → ℕ} {t : TableOut} {j w : ℕ} (h : (t.widths wd)[j]? = some w) : j < t.columns ∧ w = t.width wd j := by
  obtain ⟨h1, h2⟩ := List.getElem?_eq_some_iff.1 h
  rw [widths_length] at h1
  refine ⟨h1, ?_⟩
  rw [← h2]
  simp [TableOut.widths]

theorem body_mem {wd : Str → ℕ} {r : Option TableRule} {ws : List ℕ} {rows : List (List Str)} {l : Str} (h : l ∈ bodyLines wd r ws rows) :
    (∃ row ∈ rows, ∃ i, l = rowLine wd ws row i) ∨ ∃ x, r = some x ∧ l = x.draw ws := by
  induction rows with
  | nil => cases h
  | cons row rows ih =>
    have hrow : ∀ l ∈ rowLines wd ws row, (∃ row' ∈ row :: rows, ∃ i, l = rowLine wd ws row' i) ∨ ∃ x, r = some x ∧ l = x.draw ws := by
      intro l hl
      obtain ⟨i, _, rfl⟩ := List.mem_map.1 hl
      exact .inl ⟨row, by simp, i, rfl⟩
    cases rows with
    | nil => exact hrow l h
    | cons row' rows =>
      rw [bodyLines] at h
      · rcases List.mem_append.1 h with h | h
        · rcases List.mem_append.1 h with h | h
          · exact hrow l h
          · cases r with
            | none => cases h
            | some x => exact .inr ⟨x, rfl, by simpa using h⟩
        · rcases ih h with ⟨x, hx, h⟩ | h
          · exact .inl ⟨x, List.mem_cons_of_mem _ hx, h⟩
          · exact .inr h
      · simp

theorem lines_mem {wd : Str → ℕ} {style : TableStyle} {t : TableOut} {l : Str} (h : l ∈ t.lines wd style) :
    (∃ row ∈ t.header :: t.rows, ∃ i, l = rowLine wd (t.widths wd) row i) ∨ ∃ r : TableRule, l = r.draw (t.widths wd) := by
  have ho : ∀ {o : Option TableRule}, l ∈ (o.map (·.draw (t.widths wd))).toList → ∃ r : TableRule, l = r.draw (t.widths wd) := by
    intro o ho
    cases o with
    | none => cases ho
    | some r => exact ⟨r, by simpa using ho⟩
  unfold TableOut.lines at h
  simp only [List.mem_append] at h
  rcases h with (((h | h) | h) | h) | h
  · exact .inr (ho h)
  · obtain ⟨i, _, rfl⟩ := List.mem_map.1 h
    exact .inl ⟨_, by simp, i, rfl⟩
  · exact .inr (ho h)
  · rcases body_mem h with ⟨row, h1, h2⟩ | ⟨x, _, h⟩
    · exact .inl ⟨row, List.mem_cons_of_mem _ h1, h2⟩
    · exact .inr ⟨x, h⟩
  · exact .inr (ho h)

end TableText

/-- C114: all lines of a table have the same length, if the width of a text is its length (which is so for texts of printable ASCII). -/
theorem C114_aligned (wd : Str → ℕ) (t : TableOut) (style : TableStyle) (h0 : t.header ≠ [])
    (hw : ∀ row ∈ t.header :: t.rows, ∀ c ∈ row, ∀ l ∈ cut '\n' c, wd l = l.length) :
    ∃ n, ∀ l ∈ t.lines wd style, l.length = n := by
  have hne : t.widths wd ≠ [] := by
    intro h
    have := le_columns (t := t) t.header (by simp)
    rw [← widths_length wd, h] at this
    exact h0 (List.length_eq_zero_iff.1 (Nat.le_zero.1 this))
  refine ⟨lineLength (t.widths wd), fun l hl => ?_⟩
  rcases lines_mem hl with ⟨row, hr, i, rfl⟩ | ⟨r, rfl⟩
  · refine length_row hne (fun j w c h1 h2 l hl => ?_) i
    rw [← cut_split] at hl
    obtain ⟨h3, rfl⟩ := width_get h1
    have h4 := hw row hr c (List.mem_of_getElem? h2) l hl
    exact ⟨h4, h4 ▸ (C114_width wd t j h3).1 row hr c h2 l hl⟩
  · exact length_rule r hne

/-! #### On a terminal -/

namespace TableText

theorem terminal_append (st : TermState) (col : ℕ) (a b : Str) :
    terminal st col (a ++ b) = ((terminal st col a).1 ++ (terminal (terminal st col a).2.2 (terminal st col a).2.1 b).1,
      (terminal (terminal st col a).2.2 (terminal st col a).2.1 b).2) := by
  induction a generalizing st col with
  | nil => cases st <;> simp [terminal]
  | cons c a ih =>
    cases st with
    | normal =>
      simp only [List.cons_append, terminal]
      split
      · exact ih _ _
      · simp only [ih .normal col, List.cons_append]
    | escape =>
      simp only [List.cons_append, terminal]
      split <;> exact ih _ _
    | number n =>
      simp only [List.cons_append, terminal]
      cases digitVal c with
      | some d => exact ih _ _
      | none =>
        dsimp only
        split <;> exact ih _ _

theorem seen_append {a a' b b' : Str} (ha : SeenAs a' a) (hb : SeenAs b' b) : SeenAs (a' ++ b') (a ++ b) := by
  obtain ⟨h1, h2⟩ := ha
  obtain ⟨h3, h4⟩ := hb
  unfold SeenAs visible at *
  rw [terminal_append, h2]
  refine ⟨?_, h4⟩
  rw [List.map_append, h1, h3]

theorem seen_plain {s : Str} (h : esc ∉ s) : SeenAs s s := by
  induction s with
  | nil => exact ⟨rfl, rfl⟩
  | cons c s ih =>
    obtain ⟨h1, h2⟩ := ih fun hc => h (List.mem_cons_of_mem _ hc)
    have hc : ¬ c = Char.ofNat 27 := fun e => h (by rw [e]; exact List.mem_cons_self)
    unfold SeenAs visible at *
    simp only [terminal, if_neg hc, List.map_cons, h1, h2]
    exact ⟨trivial, trivial⟩

theorem seen_shows {col : ℕ} {text s : Str} (h : ShowsAs col text s) : SeenAs text s := by
  unfold SeenAs visible
  rw [h]
  refine ⟨?_, rfl⟩
  rw [List.map_map]
  exact List.map_id _

theorem seen_parts {parts parts' : List Str} (h : List.Forall₂ SeenAs parts' parts) {sep : Char} (hs : sep ≠ esc) :
    SeenAs ([sep].intercalate parts') ([sep].intercalate parts) := by
  induction h with
  | nil => exact seen_plain (by simp)
  | cons h t ih =>
    cases t with
    | nil => simpa using h
    | cons h' t =>
      rw [List.intercalate_cons_cons, List.intercalate_cons_cons]
      exact seen_append (seen_append h (seen_plain (by simpa using hs.symm))) ih

theorem esc_replicate (k : ℕ) : esc ∉ List.replicate k ' ' := by
  intro h
  have := List.eq_of_mem_replicate h
  revert this
  decide

theorem seen_part {c c' p : Str} (h : PartOf c p) (hc : SeenAs c' c) : ∃ p', SeenAs p' p ∧ PartOf c' p' := by
  obtain ⟨k, rfl⟩ := h
  exact ⟨_, seen_append (seen_append (seen_plain (by decide)) hc) (seen_plain (esc_replicate _)), k, rfl⟩

theorem seen_row {cells cells' : List Str} {line : Str} (h : IsRow cells line) (hc : List.Forall₂ SeenAs cells' cells) :
    ∃ line', SeenAs line' line ∧ IsRow cells' line' := by
  obtain ⟨parts, hp, rfl⟩ := h
  have : ∃ parts', List.Forall₂ SeenAs parts' parts ∧ List.Forall₂ PartOf cells' parts' := by
    induction hp generalizing cells' with
    | nil => cases hc; exact ⟨[], .nil, .nil⟩
    | cons h _ ih =>
      obtain _ | ⟨hc, hcs⟩ := hc
      obtain ⟨p', h1, h2⟩ := seen_part h hc
      obtain ⟨ps', h3, h4⟩ := ih hcs
      exact ⟨p' :: ps', .cons h1 h3, .cons h2 h4⟩
  obtain ⟨parts', h1, h2⟩ := this
  exact ⟨_, seen_append (seen_append (seen_plain (by decide)) (seen_parts h1 (by decide))) (seen_plain (by decide)), parts', h2, rfl⟩

/-- Two lines of the same kind, one seen as the other. -/
def SeenKind (k' k : Option (List Str)) : Prop :=
  match k', k with
  | none, none => True
  | some cells', some cells => List.Forall₂ SeenAs cells' cells
  | _, _ => False

theorem seen_lines {kinds kinds' : List (Option (List Str))} {lines : List Str} (h : List.Forall₂ LineIs kinds lines)
    (hk : List.Forall₂ SeenKind kinds' kinds) : ∃ lines', List.Forall₂ SeenAs lines' lines ∧ List.Forall₂ LineIs kinds' lines' := by
  induction h generalizing kinds' with
  | nil => cases hk; exact ⟨[], .nil, .nil⟩
  | cons h _ ih =>
    rename_i k l ks ls _
    obtain _ | ⟨hk, hks⟩ := hk
    rename_i k' ks'
    obtain ⟨ls', h3, h4⟩ := ih hks
    cases k with
    | none =>
      cases k' with
      | none => exact ⟨l :: ls', .cons (seen_plain (IsRule.colour h)) h3, .cons h h4⟩
      | some _ => exact hk.elim
    | some cells =>
      cases k' with
      | none => exact hk.elim
      | some cells' =>
        obtain ⟨l', h1, h2⟩ := seen_row h hk
        exact ⟨l' :: ls', .cons h1 h3, .cons h2 h4⟩

theorem seen_filled {n : ℕ} {row row' : List Str} (h : List.Forall₂ SeenAs row' row) : List.Forall₂ SeenAs (filled n row') (filled n row) := by
  unfold filled
  rw [h.length_eq]
  exact List.rel_append h (List.forall₂_same.2 fun c hc => by rw [List.eq_of_mem_replicate hc]; exact seen_plain (by simp))

theorem seen_between {b : Bool} {rows rows' : List (List Str)} (h : List.Forall₂ (List.Forall₂ SeenAs) rows' rows) :
    List.Forall₂ SeenKind (between b rows') (between b rows) := by
  induction h with
  | nil => exact .nil
  | cons h t ih =>
    cases t with
    | nil => exact .cons h .nil
    | cons h' t =>
      cases b with
      | false => exact .cons h ih
      | true => exact .cons h (.cons trivial ih)

theorem seen_kinds {markdown : Bool} {n : ℕ} {t t' : TableOut} (hh : List.Forall₂ SeenAs t'.header t.header)
    (hr : List.Forall₂ (List.Forall₂ SeenAs) t'.rows t.rows) : List.Forall₂ SeenKind (kindsOf markdown n t') (kindsOf markdown n t) := by
  have hb : ∀ b, List.Forall₂ SeenKind (between b (t'.rows.map (filled n))) (between b (t.rows.map (filled n))) := fun b => seen_between (by
    rw [List.forall₂_map_left_iff, List.forall₂_map_right_iff]
    exact hr.imp fun _ _ h => seen_filled h)
  unfold kindsOf
  cases markdown with
  | true => exact .cons (seen_filled hh) (.cons trivial (hb false))
  | false => exact .cons trivial (.cons (seen_filled hh) (.cons trivial (List.rel_append (hb true) (.cons trivial .nil))))

end TableText

/-- A table leaves the terminal as it was. -/
theorem TableText.text_seen (wd : Str → ℕ) (t t' : TableOut) (markdown : Bool) (h0 : t.header ≠ [])
    (hh : List.Forall₂ SeenAs t'.header t.header) (hr : List.Forall₂ (List.Forall₂ SeenAs) t'.rows t.rows)
    (hn : ∀ row ∈ t.header :: t.rows, ∀ c ∈ row, '\n' ∉ c) : ∃ s, SeenAs s (t.text wd markdown) := by
  obtain ⟨lines', h1, _⟩ := seen_lines (lines_are wd t markdown h0 hn) (seen_kinds (markdown := markdown) (n := t.columns) hh hr)
  exact ⟨_, seen_parts h1 (sep := '\n') (by decide)⟩

/-- C114: on a terminal, which does not show colour sequences, the cells read are those seen. -/
theorem C114_seen (wd : Str → ℕ) (t t' : TableOut) (markdown : Bool) (h0 : t.header ≠ [])
    (hh : List.Forall₂ SeenAs t'.header t.header) (hr : List.Forall₂ (List.Forall₂ SeenAs) t'.rows t.rows)
    (hn : ∀ row ∈ t.header :: t.rows, ∀ c ∈ row, '\n' ∉ c) (hc : ∀ row ∈ t'.header :: t'.rows, ∀ c ∈ row, CleanCell c) :
    readTable (visible (t.text wd markdown)) = (t'.header :: t'.rows).map (filled t.columns) := by
  have h := lines_are wd t markdown h0 hn
  obtain ⟨lines', h1, h2⟩ := seen_lines h (seen_kinds (markdown := markdown) (n := t.columns) hh hr)
  have hv := (seen_parts h1 (sep := '\n') (by decide)).1
  rw [TableOut.text, hv, ← kinds_filter markdown]
  have hcol : t'.columns = t.columns := by
    unfold TableOut.columns
    have : List.Forall₂ (List.Forall₂ SeenAs) (t'.header :: t'.rows) (t.header :: t.rows) := .cons hh hr
    generalize t'.header :: t'.rows = a at this
    generalize t.header :: t.rows = b at this
    induction this with
    | nil => rfl
    | cons h _ ih => rw [List.foldr_cons, List.foldr_cons, ih, h.length_eq]
  have h0' : t'.header ≠ [] := by
    intro e
    rw [e] at hh
    exact h0 (List.forall₂_nil_left_iff.1 hh)
  refine lines_read h2 ?_ ?_
  · intro e
    have := h2.length_eq
    rw [e] at this
    cases markdown <;> simp [kindsOf] at this
  · intro cells hk
    obtain ⟨row, hr, rfl⟩ := kinds_mem hk
    exact ⟨hcol ▸ filled_ne h0' hr, filled_clean clean_nil (hc row hr)⟩

/-! #### Colours -/

namespace TableText

theorem length_gain {parts : List Str} {ws : List ℕ} {loss gain : ℕ → ℕ} (x : Char) (hl : parts.length = ws.length)
    (h : ∀ (j : ℕ) (p : Str) (w : ℕ), parts[j]? = some p → ws[j]? = some w → p.length + loss j = w + 2 + gain j) (h0 : ws ≠ []) :
    ([x].intercalate parts).length + 1 + ((List.range ws.length).map loss).sum = (ws.map (· + 3)).sum + ((List.range ws.length).map gain).sum := by
  induction ws generalizing parts loss gain with
  | nil => exact absurd rfl h0
  | cons w ws ih =>
    cases parts with
    | nil => simp at hl
    | cons p ps =>
      have h1 := h 0 p w rfl rfl
      have hr : ∀ f : ℕ → ℕ, ((List.range (w :: ws).length).map f).sum = f 0 + ((List.range ws.length).map fun j => f (j + 1)).sum := by
        intro f
        rw [List.length_cons, List.range_succ_eq_map, List.map_cons, List.sum_cons, List.map_map]
        rfl
      rw [hr, hr]
      cases ws with
      | nil =>
        have : ps = [] := by simpa using hl
        subst this
        simp
        omega
      | cons w' ws =>
        cases ps with
        | nil => simp at hl
        | cons p' ps =>
          have ih := ih (parts := p' :: ps) (loss := fun j => loss (j + 1)) (gain := fun j => gain (j + 1)) (by simpa using hl)
            (fun j p w h1 h2 => h (j + 1) p w h1 h2) (by simp)
          rw [List.intercalate_cons_cons]
          simp only [List.length_append, List.length_cons, List.length_nil, List.map_cons, List.sum_cons] at ih ⊢
          omega

theorem sum_cells {n : ℕ} {row : List Str} (f : Str → ℕ) (h : row.length ≤ n) :
    ((List.range n).map fun j => (row[j]?.map f).getD 0).sum = (row.map f).sum := by
  induction row generalizing n with
  | nil => induction n with
    | zero => rfl
    | succ n ih => rw [List.range_succ, List.map_append, List.sum_append, ih (by simp)]; simp
  | cons c row ih =>
    cases n with
    | zero => simp at h
    | succ n =>
      rw [List.range_succ_eq_map, List.map_cons, List.sum_cons, List.map_map, List.map_cons, List.sum_cons, ← ih (n := n) (by simpa using h)]
      rfl

end TableText

/-- C114: how far the lines of a table are out of line on a terminal: a line with cells is shorter than the lines around it by what the cells count for
more than is seen of them. -/
theorem C114_ragged (wd : Str → ℕ) (t : TableOut) (h0 : t.header ≠ []) {row cells' : List Str} (hr : row ∈ t.header :: t.rows)
    (hn : ∀ c ∈ row, '\n' ∉ c) (hs : List.Forall₂ SeenAs cells' row) (r : TableRule) :
    ∃ line, rowLines wd (t.widths wd) row = [line] ∧
      (visible line).length + (row.map wd).sum = (r.draw (t.widths wd)).length + (cells'.map List.length).sum := by
  have hne : t.widths wd ≠ [] := by
    intro h
    have := le_columns (t := t) t.header (by simp)
    rw [← widths_length wd, h] at this
    exact h0 (List.length_eq_zero_iff.1 (Nat.le_zero.1 this))
  have hle : row.length ≤ (t.widths wd).length := by rw [widths_length]; exact le_columns row hr
  refine ⟨_, (row_is wd _ row hle hn).1, ?_⟩
  have hl' := hs.length_eq
  -- the parts as seen
  obtain ⟨parts, parts', hp, hpl, he, hpj⟩ : ∃ parts parts' : List Str, List.Forall₂ SeenAs parts' parts ∧ parts'.length = (t.widths wd).length ∧
      rowLine wd (t.widths wd) row 0 = ['|'] ++ ['|'].intercalate parts ++ ['|'] ∧
      ∀ (j : ℕ) (p : Str) (w : ℕ), parts'[j]? = some p → (t.widths wd)[j]? = some w →
        p.length + (row[j]?.map wd).getD 0 = w + 2 + (cells'[j]?.map List.length).getD 0 := by
    refine ⟨_, (t.widths wd).mapIdx fun j w => [' '] ++ cells'[j]?.getD [] ++ List.replicate (w - (row[j]?.map wd).getD 0) ' ' ++ [' '],
      ?_, by simp, rfl, ?_⟩
    · rw [List.forall₂_iff_get]
      refine ⟨by simp, fun j h1 h2 => ?_⟩
      simp only [List.get_eq_getElem, List.getElem_mapIdx]
      cases hj : row[j]? with
      | none =>
        have hj' : cells'[j]? = none := by
          rw [List.getElem?_eq_none_iff] at hj ⊢
          omega
        simp only [Option.bind_none, hj', Option.getD_none, Option.map_none, Nat.sub_zero, List.append_nil]
        have hb : ∀ w, [' '] ++ List.replicate w ' ' ++ [' '] = List.replicate (w + 2) ' ' := fun w => by
          rw [List.singleton_append, ← List.replicate_succ, ← List.replicate_succ']
        rw [hb]
        exact seen_plain (esc_replicate _)
      | some c =>
        obtain ⟨hj1, hj2⟩ := List.getElem?_eq_some_iff.1 hj
        have hlt : j < cells'.length := by omega
        have hj' : cells'[j]? = some cells'[j] := List.getElem?_eq_getElem hlt
        have hc : SeenAs cells'[j] c := by
          have := (List.forall₂_iff_get.1 hs).2 j (by omega) hj1
          simpa [hj2] using this
        simp only [Option.bind_some, splitChar_no (hn c (List.mem_of_getElem? hj)), hj', Option.getD_some, Option.map_some]
        exact seen_append (seen_append (seen_append (seen_plain (by decide)) hc) (seen_plain (esc_replicate _))) (seen_plain (by decide))
    · intro j p w h1 h2
      rw [List.getElem?_mapIdx, h2, Option.map_some, Option.some_inj] at h1
      subst h1
      obtain ⟨h3, h4⟩ := width_get h2
      cases hj : row[j]? with
      | none =>
        have hj' : cells'[j]? = none := by
          rw [List.getElem?_eq_none_iff] at hj ⊢
          omega
        simp [hj']
      | some c =>
        obtain ⟨hj1, hj2⟩ := List.getElem?_eq_some_iff.1 hj
        have hlt : j < cells'.length := by omega
        have hj' : cells'[j]? = some cells'[j] := List.getElem?_eq_getElem hlt
        have := (C114_width wd t j h3).1 row hr c hj c (by rw [cut_split, splitChar_no (hn c (List.mem_of_getElem? hj))]; simp)
        simp only [hj', Option.map_some, Option.getD_some, List.length_append, List.length_cons, List.length_nil, List.length_replicate]
        omega
  have hv := (seen_append (seen_append (seen_plain (s := ['|']) (by decide)) (seen_parts hp (sep := '|') (by decide))) (seen_plain (s := ['|']) (by decide))).1
  have hg := length_gain '|' hpl hpj hne
  rw [sum_cells wd hle, sum_cells List.length (by omega)] at hg
  rw [he, hv, length_rule r hne, lineLength]
  simp only [List.length_append, List.length_cons, List.length_nil]
  omega

/-! #### What the tool prints -/

namespace TableText

/-- Characters that do no harm in a cell. -/
def okChar (c : Char) : Bool := c ≠ '|' && c ≠ '\n' && c ≠ esc

/-- A text of such characters that does not end with a space. -/
def OkText (s : Str) : Prop := (∀ c ∈ s, okChar c = true) ∧ s.getLast? ≠ some ' '

theorem legible_iff {s : Str} : Legible s ↔ OkText s := by
  constructor
  · intro h
    refine ⟨fun c hc => ?_, h.last⟩
    simp only [okChar, Bool.and_eq_true, decide_eq_true_eq]
    exact ⟨⟨fun e => h.bar (e ▸ hc), fun e => h.line (e ▸ hc)⟩, fun e => h.colour (by rw [e] at hc; exact hc)⟩
  · intro h
    have hx : ∀ x, okChar x = false → x ∉ s := fun x hx hm => by rw [h.1 x hm] at hx; cases hx
    exact ⟨⟨hx _ (by decide), hx _ (by decide), h.2⟩, hx _ (by decide)⟩

theorem ok_of_digit {c : Char} (h : c.isDigit = true) : okChar c = true := by
  simp only [okChar, Bool.and_eq_true, decide_eq_true_eq]
  refine ⟨⟨?_, ?_⟩, ?_⟩ <;> rintro rfl <;> revert h <;> decide

theorem ok_of_numChar {c : Char} (h : isNumChar c = true) : okChar c = true ∧ c ≠ ' ' := by
  simp only [isNumChar, Bool.or_eq_true, decide_eq_true_eq] at h
  rcases h with h | rfl
  · exact ⟨ok_of_digit h, by rintro rfl; revert h; decide⟩
  · decide

/-- No character is a space. -/
theorem ok_dense {s : Str} (h : ∀ c ∈ s, okChar c = true ∧ c ≠ ' ') : OkText s :=
  ⟨fun c hc => (h c hc).1, fun e => (h ' ' (List.mem_of_getLast? e)).2 rfl⟩

theorem dense_nat (n : ℕ) : ∀ c ∈ natToStr n, okChar c = true ∧ c ≠ ' ' := fun c hc => by
  have := natToStr_isDigit hc
  exact ⟨ok_of_digit this, by rintro rfl; revert this; decide⟩

theorem dense_fmt2Nonneg (q : ℚ) : ∀ c ∈ fmt2Nonneg q, okChar c = true ∧ c ≠ ' ' := fun c hc => ok_of_numChar (fmt2Nonneg_numChars q c hc)

theorem dense_append {s t : Str} (hs : ∀ c ∈ s, okChar c = true ∧ c ≠ ' ') (ht : ∀ c ∈ t, okChar c = true ∧ c ≠ ' ') :
    ∀ c ∈ s ++ t, okChar c = true ∧ c ≠ ' ' := fun c hc => (List.mem_append.1 hc).elim (hs c) (ht c)

theorem dense_fmt2 (x : F64) : ∀ c ∈ fmt2 x, okChar c = true ∧ c ≠ ' ' := by
  cases x with
  | nan => decide
  | ninf => decide
  | pinf => decide
  | fin q =>
    unfold fmt2
    dsimp only
    split
    · exact dense_append (by decide) (dense_fmt2Nonneg _)
    · exact dense_fmt2Nonneg _

theorem dense_fmtScalar (n : ℕ) : ∀ c ∈ Dimension.fmtScalar n, okChar c = true ∧ c ≠ ' ' := by
  unfold Dimension.fmtScalar fmtQuot
  repeat' split
  all_goals first | exact dense_append (dense_fmt2 _) (by decide) | exact dense_nat _

theorem dense_fmtValue (d : Dimension) (n : ℕ) : ∀ c ∈ d.fmtValue n, okChar c = true ∧ c ≠ ' ' := by
  unfold Dimension.fmtValue Dimension.fmtTime Dimension.fmtProof fmtQuot
  repeat' split
  all_goals first | exact dense_append (dense_fmt2 _) (by decide) | exact dense_append (dense_nat _) (by decide)

theorem ok_value (d : Dimension) (v : Option ℕ) : OkText (valueCell d v) := by
  cases v with
  | none => exact ⟨(fun c hc => nomatch hc), by simp [valueCell]⟩
  | some v => exact ok_dense (dense_fmtValue d v)

theorem ok_append {s t : Str} (hs : ∀ c ∈ s, okChar c = true) (ht : OkText t) (h0 : t ≠ []) : OkText (s ++ t) := by
  refine ⟨fun c hc => (List.mem_append.1 hc).elim (hs c) (ht.1 c), ?_⟩
  rw [List.getLast?_append_of_ne_nil _ h0]
  exact ht.2

theorem ok_percent (p : F64) (k : RelativeChange) : OkText (colorPercent p k true) := by
  have hd : ∀ q : ℚ, OkText (List.replicate (5 - (if q < 0 then str% "-" ++ fmt2Nonneg (-q) else str% "+" ++ fmt2Nonneg q).length) ' '
      ++ (if q < 0 then str% "-" ++ fmt2Nonneg (-q) else str% "+" ++ fmt2Nonneg q)) := by
    intro q
    refine ok_append (fun c hc => by rw [List.eq_of_mem_replicate hc]; decide) (ok_dense ?_) ?_
    · split
      · exact dense_append (by decide) (dense_fmt2Nonneg _)
      · exact dense_append (by decide) (dense_fmt2Nonneg _)
    · split <;> simp
  cases k with
  | unchanged => exact (⟨by decide, by decide⟩ : OkText (str% "Unchanged"))
  | added => exact (⟨by decide, by decide⟩ : OkText (str% "Added"))
  | removed => exact (⟨by decide, by decide⟩ : OkText (str% "Removed"))
  | changed =>
    unfold colorPercent maybeColor
    simp only [if_true, ite_self]
    cases p with
    | nan => exact ⟨by decide, by decide⟩
    | ninf => exact ⟨by decide, by decide⟩
    | pinf => exact ⟨by decide, by decide⟩
    | fin q => exact hd q

/-- A printed equation ends with a number, a variable or a bracket. -/
theorem last_token {hb : Bool} {t : SimpleTerm} {toks : List (Term.Tok ℕ)} (h : Term.maybeFmt hb t = some toks) :
    ∃ ks k, toks = ks ++ [k] ∧ k ≠ .plus ∧ k ≠ .times := by
  induction t generalizing hb toks with
  | value n => unfold Term.maybeFmt at h; cases h; exact ⟨[], _, rfl, by simp, by simp⟩
  | scalar n => unfold Term.maybeFmt at h; cases h; exact ⟨[], _, rfl, by simp, by simp⟩
  | var v => unfold Term.maybeFmt at h; cases h; exact ⟨[], _, rfl, by simp, by simp⟩
  | mul l r ihl ihr =>
    unfold Term.maybeFmt at h
    split at h
    · exact ihr h
    · split at h
      · exact ihl h
      · split at h
        · cases h
        · split at h
          · rename_i h1 h2
            cases h
            obtain ⟨ks, k, rfl, hk⟩ := ihr h2
            exact ⟨_, k, (List.append_assoc _ _ _).symm, hk⟩
          · rename_i h1 h2; cases h; exact ihl h1
          · rename_i h1 h2; cases h; exact ihr h2
          · cases h
  | add l r ihl ihr =>
    unfold Term.maybeFmt at h
    split at h
    · cases h
    · split at h
      · exact ihr h
      · split at h
        · exact ihl h
        · split at h
          · split at h
            · rename_i h1 h2
              cases h
              obtain ⟨ks, k, rfl, hk⟩ := ihr h2
              exact ⟨_, k, (List.append_assoc _ _ _).symm, hk⟩
            · rename_i h1 h2; cases h; exact ihl h1
            · rename_i h1 h2; cases h; exact ihr h2
            · cases h
          · split at h
            · cases h
              exact ⟨_, _, rfl, by simp, by simp⟩
            · rename_i h1 h2; cases h; exact ihl h1
            · rename_i h1 h2; cases h; exact ihr h2
            · cases h

theorem fmtScalar_ne (n : ℕ) : Dimension.fmtScalar n ≠ [] := by
  unfold Dimension.fmtScalar
  repeat' split
  all_goals first | exact natToStr_ne_nil | simp

theorem ok_term {t : Option SimpleTerm} (h : LegibleVars t) : OkText (termCell t) := by
  cases t with
  | none => exact ⟨by decide, by decide⟩
  | some t =>
    show OkText (((Term.maybeFmt true t).getD [.num 0]).flatMap (Term.renderTok Dimension.fmtScalar))
    cases hm : Term.maybeFmt true t with
    | none => exact (⟨by decide +kernel, by decide +kernel⟩ : OkText (str% "0"))
    | some toks =>
      rw [Option.getD_some]
      have hi : ∀ x, Term.Tok.ident x ∈ toks → x ≠ [] ∧ OkText x := fun x hx => by
        obtain ⟨h1, h2⟩ := h t rfl x (ident_occurs hm x hx)
        exact ⟨h1, legible_iff.1 h2⟩
      have hc : ∀ k ∈ toks, ∀ c ∈ Term.renderTok (T := ℕ) Dimension.fmtScalar k, okChar c = true := by
        intro k hk c hc
        cases k with
        | num n => exact (dense_fmtScalar n c hc).1
        | wt n => exact (dense_fmtScalar n c hc).1
        | ident x => exact (hi x hk).2.1 c hc
        | plus => exact (by decide : ∀ c ∈ str% " + ", okChar c = true) c hc
        | times => exact (by decide : ∀ c ∈ str% " * ", okChar c = true) c hc
        | lpar => exact (by decide : ∀ c ∈ str% "(", okChar c = true) c hc
        | rpar => exact (by decide : ∀ c ∈ str% ")", okChar c = true) c hc
      obtain ⟨ks, k, rfl, hk1, hk2⟩ := last_token hm
      rw [List.flatMap_append, List.flatMap_singleton]
      refine ok_append (fun c h => ?_) ?_ ?_
      · obtain ⟨k', h1, h2⟩ := List.mem_flatMap.1 h
        exact hc k' (by simp [h1]) c h2
      · cases k with
        | num n => exact ok_dense (dense_fmtScalar n)
        | wt n => exact ok_dense (dense_fmtScalar n)
        | ident x => exact (hi x (by simp)).2
        | plus => exact absurd rfl hk1
        | times => exact absurd rfl hk2
        | lpar => exact ⟨by decide, by decide⟩
        | rpar => exact ⟨by decide, by decide⟩
      · cases k with
        | num n => exact fmtScalar_ne n
        | wt n => exact fmtScalar_ne n
        | ident x => exact (hi x (by simp)).1
        | plus => exact absurd rfl hk1
        | times => exact absurd rfl hk2
        | lpar => simp [Term.renderTok]
        | rpar => simp [Term.renderTok]

/-- The table, with all its cells. -/
def humanTable (env : PrintEnv) (f : FormatParams) (unit : Dimension) (g : Str → Str) (diff : List ExtrinsicDiff) : TableOut :=
  ⟨[str% "File", str% "Extrinsic", str% "Old", str% "New", str% "Change [%]"]
      ++ (if f.printTerms then [str% "Old Weight Term", str% "New Weight Term", str% "Used variables"] else []),
    (diff.filter fun e => e.error.isSome).map (fun e => [g e.file, e.name, str% "-", str% "-", str% "ERROR"]) ++
    (termRows diff).map (fun p => rowCells f unit (g p.1.file) p.1.name p.2 ++
      if f.printTerms then [termCell p.2.old, termCell p.2.new, env.debugScope p.2.scope] else [])⟩

theorem human_ok (env : PrintEnv) (f : FormatParams) (unit : Dimension) (diff : List ExtrinsicDiff) (hne : diff ≠ []) (g : Str → Str)
    (hg : Filters env f g) : printChangesHuman env diff f unit = .ok (some (humanTable env f unit g diff)) := by
  unfold printChangesHuman
  rw [if_neg (by simpa using hne)]
  rw [mapM_ok_map (g := fun e : ExtrinsicDiff => [g e.file, e.name, str% "-", str% "-", str% "ERROR"]) (fun e _ => by
      unfold errorRow; rw [hg]; rfl),
    mapM_ok_map (g := fun p : ExtrinsicDiff × TermChange => rowCells f unit (g p.1.file) p.1.name p.2 ++
    if f.printTerms then [termCell p.2.old, termCell p.2.new, env.debugScope p.2.scope] else []) (fun e _ => by
      unfold changeRow; rw [hg]; rfl)]
  rfl

theorem termRows_mem {diff : List ExtrinsicDiff} {p : ExtrinsicDiff × TermChange} (h : p ∈ termRows diff) : p.1 ∈ diff ∧ numbers p.1.change = some p.2 := by
  obtain ⟨e, he, h⟩ := List.mem_filterMap.1 h
  rw [term_eq_numbers] at h
  cases hn : numbers e.change with
  | none => rw [hn] at h; cases h
  | some c => rw [hn] at h; cases h; exact ⟨he, hn⟩

theorem human_header_ok (env : PrintEnv) (f : FormatParams) (unit : Dimension) (g : Str → Str) (diff : List ExtrinsicDiff) :
    ∀ c ∈ (humanTable env f unit g diff).header, OkText c := by
  have h1 : ∀ c ∈ [str% "File", str% "Extrinsic", str% "Old", str% "New", str% "Change [%]"], OkText c := by
    simp only [OkText]
    decide
  have h2 : ∀ c ∈ [str% "Old Weight Term", str% "New Weight Term", str% "Used variables"], OkText c := by
    simp only [OkText]
    decide
  intro c hc
  rcases List.mem_append.1 hc with hc | hc
  · exact h1 c hc
  · split at hc
    · exact h2 c hc
    · cases hc

theorem human_terms_ok {env : PrintEnv} {f : FormatParams} {g : Str → Str} {diff : List ExtrinsicDiff} (hl : LegibleReport env f g diff)
    {p : ExtrinsicDiff × TermChange} (hp : p ∈ termRows diff) :
    ∀ c ∈ (if f.printTerms then [termCell p.2.old, termCell p.2.new, env.debugScope p.2.scope] else []), OkText c := by
  obtain ⟨h1, h2⟩ := termRows_mem hp
  intro c hc
  cases hf : f.printTerms with
  | false => rw [hf] at hc; simp at hc
  | true =>
    obtain ⟨h3, h4, h5⟩ := hl.terms hf _ h1 _ h2
    rw [hf] at hc
    simp only [if_true, List.mem_cons, List.not_mem_nil, or_false] at hc
    rcases hc with rfl | rfl | rfl
    · exact ok_term h3
    · exact ok_term h4
    · exact legible_iff.1 h5

/-- Without colours all cells are as they should be. -/
theorem human_rows_ok {env : PrintEnv} {f : FormatParams} {g : Str → Str} {diff : List ExtrinsicDiff} (unit : Dimension) (hl : LegibleReport env f g diff) :
    ∀ row ∈ (humanTable env { f with noColor := true } unit g diff).rows, ∀ c ∈ row, OkText c := by
  intro row hr c hc
  rcases List.mem_append.1 hr with hr | hr
  · obtain ⟨e, he, rfl⟩ := List.mem_map.1 hr
    have he := List.mem_of_mem_filter he
    simp only [List.mem_cons, List.not_mem_nil, or_false] at hc
    rcases hc with rfl | rfl | rfl | rfl | rfl
    · exact legible_iff.1 (hl.files e he)
    · exact legible_iff.1 (hl.names e he)
    all_goals exact ⟨by decide, by decide⟩
  · obtain ⟨p, hp, rfl⟩ := List.mem_map.1 hr
    rcases List.mem_append.1 hc with hc | hc
    · obtain ⟨h1, h2⟩ := termRows_mem hp
      simp only [rowCells, List.mem_cons, List.not_mem_nil, or_false] at hc
      rcases hc with rfl | rfl | rfl | rfl | rfl
      · exact legible_iff.1 (hl.files _ h1)
      · exact legible_iff.1 (hl.names _ h1)
      · exact ok_value _ _
      · exact ok_value _ _
      · exact ok_percent _ _
    · exact human_terms_ok hl hp c hc

theorem ok_seen {c : Str} (h : OkText c) : SeenAs c c := seen_plain (legible_iff.2 h).colour

theorem seen_percent (p : F64) (k : RelativeChange) (nc : Bool) : SeenAs (colorPercent p k true) (colorPercent p k nc) := by
  cases nc with
  | true => exact ok_seen (ok_percent p k)
  | false => exact seen_shows (C59_cli_colour p k)

/-- With colours the cells are seen as without. -/
theorem human_rows_seen {env : PrintEnv} {f : FormatParams} {g : Str → Str} {diff : List ExtrinsicDiff} (unit : Dimension) (hl : LegibleReport env f g diff) :
    List.Forall₂ (List.Forall₂ SeenAs) (humanTable env { f with noColor := true } unit g diff).rows (humanTable env f unit g diff).rows := by
  have hok := human_rows_ok unit hl
  refine List.rel_append ?_ ?_
  · refine List.forall₂_same.2 fun row hr => List.forall₂_same.2 fun c hc => ok_seen (hok row (List.mem_append_left _ hr) c hc)
  · rw [List.forall₂_map_left_iff, List.forall₂_map_right_iff]
    refine List.forall₂_same.2 fun p hp => ?_
    obtain ⟨h1, h2⟩ := termRows_mem hp
    refine List.rel_append (.cons (ok_seen (legible_iff.1 (hl.files _ h1))) (.cons (ok_seen (legible_iff.1 (hl.names _ h1)))
      (.cons (ok_seen (ok_value _ _)) (.cons (ok_seen (ok_value _ _)) (.cons (seen_percent _ _ _) .nil))))) ?_
    exact List.forall₂_same.2 fun c hc => ok_seen (human_terms_ok hl hp c hc)

theorem human_columns (env : PrintEnv) (f : FormatParams) (unit : Dimension) (g : Str → Str) (diff : List ExtrinsicDiff) :
    (humanTable env f unit g diff).columns = if f.printTerms then 8 else 5 := by
  apply le_antisymm
  · unfold TableOut.columns
    have : ∀ row ∈ (humanTable env f unit g diff).header :: (humanTable env f unit g diff).rows, row.length ≤ if f.printTerms then 8 else 5 := by
      intro row hr
      rcases List.mem_cons.1 hr with rfl | hr
      · unfold humanTable; cases f.printTerms <;> simp
      · rcases List.mem_append.1 hr with hr | hr
        · obtain ⟨e, _, rfl⟩ := List.mem_map.1 hr
          cases f.printTerms <;> simp
        · obtain ⟨e, _, rfl⟩ := List.mem_map.1 hr
          cases f.printTerms <;> simp [rowCells]
    generalize (humanTable env f unit g diff).header :: (humanTable env f unit g diff).rows = rows at this
    induction rows with
    | nil => simp
    | cons r rows ih =>
      rw [List.foldr_cons]
      exact max_le (this r (by simp)) (ih fun row h => this row (List.mem_cons_of_mem _ h))
  · refine le_trans ?_ (le_columns _ List.mem_cons_self)
    unfold humanTable
    cases f.printTerms <;> simp

theorem human_newline {env : PrintEnv} {f : FormatParams} {g : Str → Str} {diff : List ExtrinsicDiff} (unit : Dimension) (hl : LegibleReport env f g diff) :
    ∀ row ∈ (humanTable env f unit g diff).header :: (humanTable env f unit g diff).rows, ∀ c ∈ row, '\n' ∉ c := by
  have hok : ∀ {c}, OkText c → '\n' ∉ c := fun h => (legible_iff.2 h).line
  intro row hr c hc
  rcases List.mem_cons.1 hr with rfl | hr
  · exact hok (human_header_ok env f unit g diff c hc)
  · rcases List.mem_append.1 hr with hr | hr
    · exact hok (human_rows_ok unit hl row (List.mem_append_left _ hr) c hc)
    · obtain ⟨p, hp, rfl⟩ := List.mem_map.1 hr
      rcases List.mem_append.1 hc with hc | hc
      · obtain ⟨h1, h2⟩ := termRows_mem hp
        simp only [rowCells, List.mem_cons, List.not_mem_nil, or_false] at hc
        rcases hc with rfl | rfl | rfl | rfl | rfl
        · exact (hl.files _ h1).line
        · exact (hl.names _ h1).line
        · exact hok (ok_value _ _)
        · exact hok (ok_value _ _)
        · exact fun hm => (sepFree_colorPercent _ _ _ _ hm).2 rfl
      · exact hok (human_terms_ok hl hp c hc)

theorem read_end (s : Str) : readTable (s ++ str% "\n") = readTable s := by
  have : cut '\n' (s ++ str% "\n") = cut '\n' s ++ [[]] := by
    induction s with
    | nil => rfl
    | cons c s ih =>
      rw [List.cons_append, cut, cut, ih]
      split
      · rfl
      · cases h : cut '\n' s with
        | nil =>
          rw [cut_split] at h
          exact absurd h (splitChar_ne_nil _ _)
        | cons a l => rfl
  rw [readTable, this, List.filter_append]
  simp [readTable, hasCells, List.isPrefixOf]

theorem kept_mem {diff : List ExtrinsicDiff} {filter : FilterParams} {e : ExtrinsicDiff} (h : e ∈ (sortChanges (filterChanges diff filter)).reverse) :
    e ∈ diff := List.mem_of_mem_filter ((C37_sort_changes (filterChanges diff filter)).perm.subset (List.mem_reverse.1 h))

end TableText

/-- C114: what is read on the terminal after a comparison is what the tool would print without colours: every entry of the report in its own line, with
its cells, whatever is taken as the width of a text.  (`C61_compare` says what these cells are.) -/
theorem C114_tool (wd : Str → ℕ) (v : Bool) (env : PrintEnv) (f : FormatParams) (filter : FilterParams) (unit : Dimension) (diff : List ExtrinsicDiff)
    (hf : f.format = .human ∨ f.format = .markdown) (hne : filterChanges diff filter ≠ []) (g : Str → Str) (hg : Filters env f g)
    (hl : LegibleReport env f g diff) :
    ∃ t t' md, showDiff env f filter unit diff = .ok (.table t md) ∧
      showDiff env { f with noColor := true } filter unit diff = .ok (.table t' md) ∧
      readTable (visible ((Shown.table t md).text wd v)) = (t'.header :: t'.rows).map (filled (if f.printTerms then 8 else 5)) := by
  have hne' : (sortChanges (filterChanges diff filter)).reverse ≠ [] := by
    intro h
    have hp := (C37_sort_changes (filterChanges diff filter)).perm
    rw [List.reverse_eq_nil_iff.1 h] at hp
    exact hne (List.nil_perm.1 hp)
  have hl' : LegibleReport env f g (sortChanges (filterChanges diff filter)).reverse :=
    ⟨fun e he => hl.files e (kept_mem he), fun e he => hl.names e (kept_mem he), fun h e he => hl.terms h e (kept_mem he)⟩
  have h1 := human_ok env f unit _ hne' g hg
  have h2 := human_ok env { f with noColor := true } unit _ hne' g hg
  refine ⟨humanTable env f unit g (sortChanges (filterChanges diff filter)).reverse,
    humanTable env { f with noColor := true } unit g (sortChanges (filterChanges diff filter)).reverse, decide (f.format = .markdown), ?_, ?_, ?_⟩
  · unfold showDiff printChanges
    rcases hf with hf | hf <;> rw [hf] <;> dsimp only <;> rw [h1] <;> rfl
  · unfold showDiff printChanges
    rcases hf with hf | hf <;> dsimp only at h2 ⊢ <;> rw [hf] at h2 ⊢ <;> dsimp only <;> rw [h2] <;> rfl
  · generalize hd : (sortChanges (filterChanges diff filter)).reverse = d at *
    have hh := human_header_ok env f unit g d
    rw [← human_columns env f unit g d, ← C114_seen wd (humanTable env f unit g d) (humanTable env { f with noColor := true } unit g d)
      (decide (f.format = .markdown)) (by unfold humanTable; cases f.printTerms <;> simp)
      (List.forall₂_same.2 fun c hc => ok_seen (hh c hc)) (human_rows_seen unit hl') (human_newline unit hl') ?_]
    · obtain ⟨s, hs⟩ := text_seen wd (humanTable env f unit g d) (humanTable env { f with noColor := true } unit g d)
        (decide (f.format = .markdown)) (by unfold humanTable; cases f.printTerms <;> simp)
        (List.forall₂_same.2 fun c hc => ok_seen (hh c hc)) (human_rows_seen unit hl') (human_newline unit hl')
      have h3 := seen_append hs (seen_plain (s := str% "\n") (by decide))
      rw [Shown.text, h3.1, hs.1, read_end]
    · intro row hr c hc
      rcases List.mem_cons.1 hr with rfl | hr
      · exact (legible_iff.2 (hh c hc)).toCleanCell
      · exact (legible_iff.2 (human_rows_ok unit hl' row hr c hc)).toCleanCell

/-! #### The standard output -/

namespace TableText

theorem head_intercalate {sep : Str} {l : Str} {ls : List Str} {x : Char} (h : l.head? = some x) : (sep.intercalate (l :: ls)).head? = some x := by
  cases ls with
  | nil => simpa using h
  | cons l' ls =>
    rw [List.intercalate_cons_cons, List.append_assoc, List.head?_append, h]
    rfl

theorem rowLines_head (wd : Str → ℕ) (ws : List ℕ) (row : List Str) : ∃ l ls, rowLines wd ws row = l :: ls ∧ l.head? = some '|' := by
  have : ∃ n, row.foldr (fun c n => max (splitChar '\n' c).length n) 1 = n + 1 := by
    induction row with
    | nil => exact ⟨0, rfl⟩
    | cons c row ih =>
      obtain ⟨n, ih⟩ := ih
      rw [List.foldr_cons, ih]
      have : 1 ≤ max (splitChar '\n' c).length (n + 1) := (Nat.succ_le_succ (Nat.zero_le n)).trans (le_max_right _ _)
      exact ⟨max (splitChar '\n' c).length (n + 1) - 1, by omega⟩
  obtain ⟨n, hn⟩ := this
  rw [rowLines, hn, List.range_succ_eq_map, List.map_cons]
  exact ⟨_, _, rfl, rfl⟩

/-- A table begins with a corner, or with a bar in Markdown. -/
theorem text_head (wd : Str → ℕ) (t : TableOut) (markdown : Bool) : (t.text wd markdown).head? = some (if markdown then '|' else '+') := by
  unfold TableOut.text TableOut.lines
  cases markdown with
  | false => exact head_intercalate rfl
  | true =>
    obtain ⟨l, ls, h1, h2⟩ := rowLines_head wd (t.widths wd) t.header
    simp only [if_true, h1]
    exact head_intercalate h2

theorem kept_nil {diff : List ExtrinsicDiff} {filter : FilterParams} : (sortChanges (filterChanges diff filter)).reverse = [] ↔ filterChanges diff filter = [] := by
  have hp := (C37_sort_changes (filterChanges diff filter)).perm
  rw [List.reverse_eq_nil_iff]
  constructor
  · intro h; rw [h] at hp; exact List.nil_perm.1 hp
  · intro h; rw [h] at hp ⊢; exact List.perm_nil.1 hp

/-- What is shown, by format. -/
theorem show_cases {env : PrintEnv} {f : FormatParams} {filter : FilterParams} {unit : Dimension} {diff : List ExtrinsicDiff} {sh : Shown}
    (h : showDiff env f filter unit diff = .ok sh) :
    (filterChanges diff filter = [] ∧ sh = .nothing) ∨ (filterChanges diff filter ≠ [] ∧
      ((f.format = .csv ∧ ∃ rows : List Str, sh = .csv ((rows.map (· ++ str% "\n")).flatten) ∧ ∃ r rs, rows = r :: rs ∧ r.head? = some 'F') ∨
        f.format ≠ .csv ∧ ∃ t, sh = .table t (decide (f.format = .markdown)))) := by
  unfold showDiff printChanges at h
  have hn := kept_nil (diff := diff) (filter := filter)
  generalize (sortChanges (filterChanges diff filter)).reverse = d at h hn
  have human : ∀ o, printChangesHuman env d f unit = .ok o → (o = none ∧ d = []) ∨ (∃ t, o = some t ∧ d ≠ []) := by
    intro o ho
    unfold printChangesHuman at ho
    cases d with
    | nil => cases ho; exact .inl ⟨rfl, rfl⟩
    | cons e d =>
      simp only [List.isEmpty_cons, Bool.false_eq_true, if_false] at ho
      obtain ⟨a, _, ho⟩ := bind_eq_ok ho
      obtain ⟨b, _, ho⟩ := bind_eq_ok ho
      cases ho
      exact .inr ⟨_, rfl, by simp⟩
  cases hf : f.format with
  | human =>
    rw [hf] at h
    dsimp only at h
    generalize hr : printChangesHuman env d f unit = r at h
    cases r with
    | ok o =>
      cases h
      rcases human o hr with ⟨rfl, h⟩ | ⟨t, rfl, h⟩
      · exact .inl ⟨hn.1 h, rfl⟩
      · exact .inr ⟨fun e => h (hn.2 e), .inr ⟨by simp, t, rfl⟩⟩
    | _ => cases h
  | markdown =>
    rw [hf] at h
    dsimp only at h
    generalize hr : printChangesHuman env d f unit = r at h
    cases r with
    | ok o =>
      cases h
      rcases human o hr with ⟨rfl, h⟩ | ⟨t, rfl, h⟩
      · exact .inl ⟨hn.1 h, rfl⟩
      · exact .inr ⟨fun e => h (hn.2 e), .inr ⟨by simp, t, rfl⟩⟩
    | _ => cases h
  | csv =>
    rw [hf] at h
    cases d with
    | nil => cases h; exact .inl ⟨hn.1 rfl, rfl⟩
    | cons e d =>
      cases h
      refine .inr ⟨fun e => by simpa using hn.2 e, .inl ⟨rfl, ?_⟩⟩
      refine ⟨(str% "File,Extrinsic,Old,New,Change Percent" ++ (if f.printTerms then str% ",Old Weight Term,New Weight Term,Used variables" else []))
        :: (termRows (e :: d)).map (fun p => p.1.file ++ str% "," ++ p.1.name ++ str% "," ++ valueCell unit p.2.oldV ++ str% ","
            ++ valueCell unit p.2.newV ++ str% "," ++ colorPercent p.2.percent p.2.change f.noColor
            ++ (if f.printTerms then termCell p.2.old ++ str% "," ++ termCell p.2.new ++ str% "," ++ noCommas (env.debugScope p.2.scope) else [])),
        ?_, _, _, rfl, rfl⟩
      simp only [printChangesCsv, List.isEmpty_cons, Bool.false_eq_true, if_false, List.map_cons, List.flatten_cons, List.map_map, ← List.flatMap_def]
      rfl
  | briefHuman => rw [hf] at h; cases h
  | json => rw [hf] at h; cases h

end TableText

/-- C114: the notice that there are no changes, and an empty line, is all that is printed exactly if no entry is left; with `--verbose` the notice is in
the log, and there is only the empty line. -/
theorem C114_notice (wd : Str → ℕ) {env : PrintEnv} {f : FormatParams} {filter : FilterParams} {unit : Dimension} {diff : List ExtrinsicDiff} {sh : Shown}
    (h : showDiff env f filter unit diff = .ok sh) :
    (sh.text wd false = str% "No changes found.\n\n" ↔ filterChanges diff filter = []) ∧
      (sh.text wd true = str% "\n" ↔ filterChanges diff filter = []) := by
  rcases show_cases h with ⟨h1, rfl⟩ | ⟨h1, ⟨_, rows, rfl, r, rs, rfl, hr⟩ | ⟨_, t, rfl⟩⟩
  · simp only [h1, iff_true]
    exact ⟨rfl, rfl⟩
  · simp only [h1, iff_false]
    cases r with
    | nil => cases hr
    | cons x r =>
      cases hr
      exact ⟨by simp [Shown.text], by simp [Shown.text]⟩
  · simp only [h1, iff_false]
    have := text_head wd t (decide (f.format = .markdown))
    constructor <;>
    · intro e
      simp only [Shown.text] at e
      cases ht : t.text wd (decide (f.format = .markdown)) with
      | nil => rw [ht] at this; cases this
      | cons x s =>
        rw [ht] at this e
        cases this
        have := congrArg List.head? e
        revert this
        cases decide (f.format = .markdown) <;> simp

/-- C114: `--verbose` makes no other difference to what is printed. -/
theorem C114_verbose (wd : Str → ℕ) {sh : Shown} (h : sh ≠ .nothing) : sh.text wd true = sh.text wd false := by
  cases sh with
  | nothing => exact absurd rfl h
  | csv t => rfl
  | table t m => rfl

/-- C114: comma separated values are followed by an empty line. -/
theorem C114_csv_end (wd : Str → ℕ) (v : Bool) {env : PrintEnv} {f : FormatParams} {filter : FilterParams} {unit : Dimension}
    {diff : List ExtrinsicDiff} {sh : Shown} (h : showDiff env f filter unit diff = .ok sh) (hf : f.format = .csv)
    (hne : filterChanges diff filter ≠ []) : ∃ u, sh.text wd v = u ++ str% "\n\n" := by
  rcases show_cases h with ⟨h1, rfl⟩ | ⟨_, ⟨_, rows, rfl, r, rs, rfl, hr⟩ | ⟨hn, t, rfl⟩⟩
  · exact absurd h1 hne
  · rcases List.eq_nil_or_concat' (r :: rs) with e | ⟨l, x, e⟩
    · cases e
    · rw [e]
      refine ⟨(l.map (· ++ str% "\n")).flatten ++ x, ?_⟩
      simp [Shown.text]
  · exact absurd hf hn

/-- C114: the standard output of a comparison: the report if the program ends well, otherwise nothing. -/
theorem C114_stdout {W : World} (wd : Str → ℕ) (b : Build) (ho : HashOrder) (rx : RegexEngine) (env : Env) (penv : PrintEnv) (args : List Str) (s : Run W)
    {v : Bool} {cmd : Command} (hr : readCommandLine b args = some (v, cmd)) (hc : ∀ files, cmd ≠ .parseFiles files) :
    (∃ sh, (cliMain b ho rx env penv args s).1 = .ok (some (.inl sh)) ∧ cliStdout wd b ho rx env penv args s = some (sh.text wd v)) ∨
    ((cliMain b ho rx env penv args s).1.status ≠ some 0 ∧ cliStdout wd b ho rx env penv args s = some []) := by
  have hm : (cliMain b ho rx env penv args s).1 = (cmd.run (W := W) b ho rx env penv s).1.map some := by
    unfold cliMain
    rw [hr]
    show (Act.andThen (cmd.run (W := W) b ho rx env penv) (fun r => Act.ret (some r)) s).1 = _
    unfold Act.andThen
    generalize cmd.run (W := W) b ho rx env penv s = x
    obtain ⟨r, s'⟩ := x
    cases r <;> rfl
  have hout : cliStdout wd b ho rx env penv args s = some (match (cmd.run (W := W) b ho rx env penv s).1 with
      | .ok (.inl shown) => shown.text wd v
      | _ => []) := by
    unfold cliStdout
    rw [hr]
    cases cmd with
    | parseFiles files => exact absurd rfl (hc files)
    | _ => rfl
  rw [hm, hout]
  have hinr : ∀ p, (cmd.run (W := W) b ho rx env penv s).1 ≠ .ok (.inr p) := by
    intro p hx
    cases cmd with
    | compareFiles params filter f old new =>
      simp only [Command.run] at hx
      generalize cliCompareFiles b ho rx env penv (W.fs s.state) params filter f old new = y at hx
      cases y <;> cases hx
    | compareCommits params filter f old new repo pattern =>
      have hx : (Act.andThen (cliCompareCommits b ho rx env penv repo old new params filter f pattern)
        (fun shown => Act.ret (.inl shown)) s).1 = Res.ok (Sum.inr p : Shown ⊕ Str × Str) := hx
      unfold Act.andThen at hx
      generalize cliCompareCommits b ho rx env penv repo old new params filter f pattern s = y at hx
      obtain ⟨y, s1⟩ := y
      cases y <;> cases hx
    | parseFiles files => exact hc files rfl
  generalize (cmd.run (W := W) b ho rx env penv s).1 = r at hinr
  cases r with
  | ok a =>
    cases a with
    | inl sh => exact .inl ⟨sh, rfl, rfl⟩
    | inr p => exact absurd rfl (hinr p)
  | err m => exact .inr ⟨by simp [Res.map, Res.status], rfl⟩
  | panic => exact .inr ⟨by simp [Res.map, Res.status], rfl⟩
  | diverge => exact .inr ⟨by simp [Res.map, Res.status], rfl⟩

/-- C114: the standard output of `parse files`: the announcement in any case, and the result if all files can be read; with `--verbose` both are in the
log. -/
theorem C114_parse {W : World} (wd : Str → ℕ) (b : Build) (ho : HashOrder) (rx : RegexEngine) (env : Env) (penv : PrintEnv) (args : List Str) (s : Run W)
    {v : Bool} {files : List Path} (hr : readCommandLine b args = some (v, .parseFiles files)) :
    (v = true ∧ cliStdout wd b ho rx env penv args s = some []) ∨
    (v = false ∧ ∃ out, cliStdout wd b ho rx env penv args s = some (str% "Trying to parse " ++ natToStr files.length ++ str% " files...\n" ++ out) ∧
      ((∃ exts, ReadFiles env (W.fs s.state) false files exts ∧ out = str% "Parsed " ++ natToStr exts.length ++ str% " files successfully\n") ∨
        ((¬ ∃ exts, ReadFiles env (W.fs s.state) false files exts) ∧ out = []))) := by
  obtain ⟨h1, h2, _⟩ := C76_parse env (W.fs s.state) files
  unfold cliStdout
  rw [hr]
  simp only [Option.map_some, Option.some_inj]
  generalize cliParseFiles env (W.fs s.state) files = p at h1 h2
  obtain ⟨first, second⟩ := p
  dsimp only at h1 h2
  subst h1
  cases v with
  | true =>
    refine .inl ⟨rfl, ?_⟩
    cases second <;> rfl
  | false =>
    refine .inr ⟨rfl, ?_⟩
    cases second with
    | ok t =>
      obtain ⟨exts, h3, rfl⟩ := (h2 t).1 rfl
      exact ⟨_, by simp [say], .inl ⟨exts, h3, rfl⟩⟩
    | err m => exact ⟨[], by simp [say], .inr ⟨(fun ⟨exts, h⟩ => nomatch (h2 _).2 ⟨exts, h, rfl⟩), rfl⟩⟩
    | panic => exact ⟨[], by simp [say], .inr ⟨(fun ⟨exts, h⟩ => nomatch (h2 _).2 ⟨exts, h, rfl⟩), rfl⟩⟩
    | diverge => exact ⟨[], by simp [say], .inr ⟨(fun ⟨exts, h⟩ => nomatch (h2 _).2 ⟨exts, h, rfl⟩), rfl⟩⟩

/-! #### Colours are counted -/

theorem TableText.asciiWidth_paint (a : AnsiColor) (s : Str) : asciiWidth (a.paint s) = asciiWidth s + 7 := by
  cases a <;> · simp only [AnsiColor.paint, asciiWidth, List.countP_append]; simp [esc]; omega

/-- C114: where the text of a percentage is coloured, its line is seven columns shorter on a terminal than the lines above and below, because the colour
sequences are counted; where it is not, the lines fit. -/
theorem C114_coloured (t : TableOut) (h0 : t.header ≠ []) {row cells' : List Str} (hr : row ∈ t.header :: t.rows) (hn : ∀ c ∈ row, '\n' ∉ c)
    (hs : List.Forall₂ (fun c' c => (∀ x ∈ c', 32 ≤ x.toNat) ∧ SeenAs c' c ∧ (c = c' ∨ ∃ a : AnsiColor, c = a.paint c')) cells' row) (r : TableRule) :
    ∃ line, rowLines asciiWidth (t.widths asciiWidth) row = [line] ∧
      (visible line).length + 7 * (row.countP fun c => esc ∈ c) = (r.draw (t.widths asciiWidth)).length := by
  obtain ⟨line, h1, h2⟩ := C114_ragged asciiWidth t h0 hr hn (hs.imp fun _ _ h => h.2.1) r
  refine ⟨line, h1, ?_⟩
  have hsum : (row.map asciiWidth).sum = (cells'.map List.length).sum + 7 * (row.countP fun c => esc ∈ c) := by
    clear hn hr h1 h2
    induction hs with
    | nil => rfl
    | cons h _ ih =>
      rename_i c' c _ _ _
      obtain ⟨h1, _, h3⟩ := h
      have hl : asciiWidth c' = c'.length := List.countP_eq_length.2 fun x hx => by simpa using h1 x hx
      have he : esc ∉ c' := fun he => absurd (h1 _ he) (by decide)
      simp only [List.map_cons, List.sum_cons, List.countP_cons, ih]
      rcases h3 with rfl | ⟨a, rfl⟩
      · simp only [he, hl]
        simp
        omega
      · have : esc ∈ a.paint c' := by cases a <;> simp [AnsiColor.paint]
        simp only [this, asciiWidth_paint, hl]
        simp
        omega
  omega

/-! #### Examples -/

/-- A table like those of `README.md:90-116`. -/
def exTable : TableOut :=
  ⟨[str% "File", str% "New", str% "Change [%]"], [[str% "a.rs", str% "4.53us", AnsiColor.red.paint (str% "+45.02")], [str% "b.rs", str% "-"]]⟩

example : exTable.text asciiWidth false = str% "+------+--------+---------------+\n| File | New    | Change [%]    |\n+===============================+\n| a.rs | 4.53us | "
    ++ AnsiColor.red.paint (str% "+45.02") ++ str% " |\n|------+--------+---------------|\n| b.rs | -      |               |\n+------+--------+---------------+" := by
  decide +kernel

example : exTable.text asciiWidth true = str% "| File | New    | Change [%]    |\n|------|--------|---------------|\n| a.rs | 4.53us | "
    ++ AnsiColor.red.paint (str% "+45.02") ++ str% " |\n| b.rs | -      |               |" := by decide +kernel

example : readTable (exTable.text asciiWidth false) =
    [[str% "File", str% "New", str% "Change [%]"], [str% "a.rs", str% "4.53us", AnsiColor.red.paint (str% "+45.02")], [str% "b.rs", str% "-", []]] :=
  C114_read asciiWidth exTable false (by decide) (fun row hr c hc => by
    have : ∀ row ∈ exTable.header :: exTable.rows, ∀ c ∈ row, '|' ∉ c ∧ '\n' ∉ c ∧ c.getLast? ≠ some ' ' := by decide
    obtain ⟨h1, h2, h3⟩ := this row hr c hc
    exact ⟨h1, h2, h3⟩)

example : ∃ line, rowLines asciiWidth (exTable.widths asciiWidth) [str% "a.rs", str% "4.53us", AnsiColor.red.paint (str% "+45.02")] = [line] ∧
    (visible line).length + 7 = 33 := by
  have h := C114_coloured exTable (by decide) (row := [str% "a.rs", str% "4.53us", AnsiColor.red.paint (str% "+45.02")])
    (cells' := [str% "a.rs", str% "4.53us", str% "+45.02"]) (by decide) (by decide)
    (.cons ⟨by decide, by unfold SeenAs; decide +kernel, .inl rfl⟩ (.cons ⟨by decide, by unfold SeenAs; decide +kernel, .inl rfl⟩
      (.cons ⟨by decide, by unfold SeenAs; decide +kernel, .inr ⟨.red, rfl⟩⟩ .nil))) ⟨'|', '-', '+', '|'⟩
  obtain ⟨line, h1, h2⟩ := h
  refine ⟨line, h1, ?_⟩
  rw [show (TableRule.draw ⟨'|', '-', '+', '|'⟩ (exTable.widths asciiWidth)).length = 33 by decide +kernel] at h2
  exact h2

/-- C114, the hypothesis on names is needed: a bar in the name of a file (which may contain any) makes one cell look like two, in both formats. -/
theorem C114_false_bar (markdown : Bool) : ∃ t : TableOut, t.header = [str% "File", str% "Extrinsic"] ∧ t.rows = [[str% "a | b.rs", str% "f"]] ∧
    readTable (t.text asciiWidth markdown) = [[str% "File", str% "Extrinsic"], [str% "a", str% "b.rs", str% "f"]] := by
  refine ⟨⟨_, _⟩, rfl, rfl, ?_⟩
  cases markdown <;> decide +kernel

/-- C114: a report that can be read. -/
example : ∃ t t' md, showDiff exPrintEnv ⟨.markdown, false, false, none⟩ ⟨.fin 0, none, none, none⟩ .time exCliReport = .ok (.table t md) ∧
      showDiff exPrintEnv ⟨.markdown, false, true, none⟩ ⟨.fin 0, none, none, none⟩ .time exCliReport = .ok (.table t' md) ∧
      readTable (visible ((Shown.table t md).text asciiWidth false)) = (t'.header :: t'.rows).map (filled 5) := by
  have h := C114_tool asciiWidth false exPrintEnv ⟨.markdown, false, false, none⟩ ⟨.fin 0, none, none, none⟩ .time exCliReport (.inr rfl)
    (by decide +kernel) id (filters_none _ _ rfl) ⟨fun e he => ?_, fun e he => ?_, fun h => nomatch h⟩
  · exact h
  · have : ∀ e ∈ exCliReport, '|' ∉ e.file ∧ '\n' ∉ e.file ∧ e.file.getLast? ≠ some ' ' ∧ Char.ofNat 27 ∉ e.file := by decide
    obtain ⟨h1, h2, h3, h4⟩ := this e he
    exact ⟨⟨h1, h2, h3⟩, h4⟩
  · have : ∀ e ∈ exCliReport, '|' ∉ e.name ∧ '\n' ∉ e.name ∧ e.name.getLast? ≠ some ' ' ∧ Char.ofNat 27 ∉ e.name := by decide
    obtain ⟨h1, h2, h3, h4⟩ := this e he
    exact ⟨⟨h1, h2, h3⟩, h4⟩

end Swc
