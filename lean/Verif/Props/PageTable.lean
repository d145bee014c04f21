/-
C73: the table and the messages of the page of a comparison.
-/
import Verif.Props.Page

namespace Swc

open Spec F64

/-! ### Characters of printed numbers -/

/-- Characters without meaning in HTML, and not blank. -/
def cleanChar (c : Char) : Bool := c ≠ '<' && c ≠ '&' && c ≠ '"' && c ≠ '\'' && !isBlank c

/-- All characters are clean. -/
def Spotless (s : Str) : Prop := ∀ c ∈ s, cleanChar c = true

instance (s : Str) : Decidable (Spotless s) := inferInstanceAs (Decidable (∀ c ∈ s, cleanChar c = true))

theorem clean_of_digit {c : Char} (h : c.isDigit = true) : cleanChar c = true := by
  by_contra hc
  simp only [cleanChar, isBlank, Bool.and_eq_true, decide_eq_true_eq, Bool.not_eq_true', Bool.or_eq_false_iff, decide_eq_false_iff_not, not_and_or, not_not] at hc
  rcases hc with (((rfl | rfl) | rfl) | rfl) | ((((rfl | rfl) | rfl) | rfl) | rfl) <;> revert h <;> decide

theorem clean_of_numChar {c : Char} (h : isNumChar c = true) : cleanChar c = true := by
  simp only [isNumChar, Bool.or_eq_true, decide_eq_true_eq] at h
  rcases h with h | rfl
  · exact clean_of_digit h
  · decide

theorem clean_natToStr (n : ℕ) : Spotless (natToStr n) := fun _ hc => clean_of_digit (natToStr_isDigit hc)

theorem spotless_append {s t : Str} (hs : Spotless s) (ht : Spotless t) : Spotless (s ++ t) := by
  intro c hc
  rcases List.mem_append.1 hc with h | h
  · exact hs c h
  · exact ht c h

theorem clean_fmt2Nonneg (q : ℚ) : Spotless (fmt2Nonneg q) := fun c hc => clean_of_numChar (fmt2Nonneg_numChars q c hc)

theorem clean_fmt2 (x : F64) : Spotless (fmt2 x) := by
  cases x with
  | nan => decide
  | ninf => decide
  | pinf => decide
  | fin q =>
    show Spotless (if q < 0 then str% "-" ++ fmt2Nonneg (-q) else fmt2Nonneg q)
    split
    · exact spotless_append (by decide) (clean_fmt2Nonneg _)
    · exact clean_fmt2Nonneg _

theorem clean_fmtScalar (n : ℕ) : Spotless (Dimension.fmtScalar n) := by
  unfold Dimension.fmtScalar fmtQuot
  repeat' split
  all_goals first | exact spotless_append (clean_fmt2 _) (by decide) | exact clean_natToStr _

theorem clean_fmtValue (d : Dimension) (n : ℕ) : Spotless (d.fmtValue n) := by
  unfold Dimension.fmtValue Dimension.fmtTime Dimension.fmtProof fmtQuot
  repeat' split
  all_goals first | exact spotless_append (clean_fmt2 _) (by decide) | exact spotless_append (clean_natToStr _) (by decide)

theorem clean_intToStr (z : ℤ) : Spotless (intToStr z) := by
  unfold intToStr
  split
  · exact spotless_append (s := str% "-") (by decide) (clean_natToStr _)
  · exact clean_natToStr _

theorem inert_of_clean {s : Str} (h : Spotless s) : Inert s := by
  intro c hc
  have := h c hc
  simp only [cleanChar, Bool.and_eq_true, decide_eq_true_eq] at this
  exact ⟨this.1.1.1.1, this.1.1.1.2, this.1.1.2⟩

theorem inert_append {s t : Str} (hs : Inert s) (ht : Inert t) : Inert (s ++ t) := by
  intro c hc
  rcases List.mem_append.1 hc with h | h
  · exact hs c h
  · exact ht c h

theorem inert_display {t : SimpleTerm} (h : ∀ x, Occurs x t → Inert x) : Inert (Term.display Dimension.fmtScalar t) := by
  intro c hc
  simp only [Term.display, List.mem_flatMap] at hc
  obtain ⟨k, hk, hc⟩ := hc
  unfold Term.fmtTokens at hk
  have fin : ∀ x, k = Term.Tok.ident x → Inert x := by
    rintro x rfl
    cases hm : Term.maybeFmt true t with
    | none => rw [hm] at hk; simp at hk
    | some toks =>
      rw [hm, Option.getD_some] at hk
      exact h x (ident_occurs hm x hk)
  cases k with
  | num n => exact inert_of_clean (clean_fmtScalar n) c hc
  | wt n => exact inert_of_clean (clean_fmtScalar n) c hc
  | ident x => exact fin x rfl c hc
  | plus => exact (by decide : Inert (str% " + ")) c hc
  | times => exact (by decide : Inert (str% " * ")) c hc
  | lpar => exact (by decide : Inert (str% "(")) c hc
  | rpar => exact (by decide : Inert (str% ")")) c hc

theorem feed_clean_quoted (t : Tag) (n v s : Str) (h : Spotless s) : feed (.text (.quoted '\'' t n v)) s = (.text (.quoted '\'' t n (v ++ s)), []) := by
  induction s generalizing v with
  | nil => simp [feed]
  | cons c s ih =>
    have hc := h c List.mem_cons_self
    simp only [cleanChar, Bool.and_eq_true, decide_eq_true_eq] at hc
    have h0 : feed (.text (.quoted '\'' t n v)) [c] = (.text (.quoted '\'' t n (v ++ [c])), []) := by
      simp [feed, stepHtml, stepText, stepPlain, hc.1.1.1.2, hc.1.2]
    have := feed_append_of h0 (ih (v ++ [c]) fun d hd => h d (List.mem_cons_of_mem _ hd))
    simpa using this

/-! ### White space -/

/-- Only white space. -/
def Blanks (s : Str) : Prop := ∀ c ∈ s, isBlank c = true

instance (s : Str) : Decidable (Blanks s) := inferInstanceAs (Decidable (∀ c ∈ s, isBlank c = true))

theorem blanks_append {s t : Str} (hs : Blanks s) (ht : Blanks t) : Blanks (s ++ t) := by
  intro c hc
  rcases List.mem_append.1 hc with h | h
  · exact hs c h
  · exact ht c h

theorem dropWhile_blanks {w : Str} (s : Str) (h : Blanks w) : (w ++ s).dropWhile isBlank = s.dropWhile isBlank := by
  induction w with
  | nil => rfl
  | cons c w ih => rw [List.cons_append, List.dropWhile_cons, if_pos (h c List.mem_cons_self), ih fun d hd => h d (List.mem_cons_of_mem _ hd)]

theorem dropWhile_blanks_all {w : Str} (h : Blanks w) : w.dropWhile isBlank = [] := by
  rw [← List.append_nil w, dropWhile_blanks _ h]
  rfl

theorem dropWhile_append_right {w : Str} (s : Str) (h : Blanks w) :
    ∃ u, Blanks u ∧ (s ++ w).dropWhile isBlank = s.dropWhile isBlank ++ u := by
  induction s with
  | nil => exact ⟨[], by decide, dropWhile_blanks_all h⟩
  | cons c s ih =>
    rw [List.cons_append, List.dropWhile_cons, List.dropWhile_cons]
    by_cases hc : isBlank c = true
    · rw [if_pos hc, if_pos hc]; exact ih
    · rw [if_neg hc, if_neg hc]; exact ⟨w, h, rfl⟩

/-- White space around a text does not matter. -/
theorem strip_pad {u w : Str} (s : Str) (hu : Blanks u) (hw : Blanks w) : strip (u ++ s ++ w) = strip s := by
  obtain ⟨v, hv, e⟩ := dropWhile_append_right s hw
  rw [strip, strip, List.append_assoc, dropWhile_blanks _ hu, e, List.reverse_append, dropWhile_blanks _ fun c hc => hv c (List.mem_reverse.1 hc)]

theorem dropWhile_noBlank {s : Str} (h : ∀ c ∈ s, isBlank c = false) : s.dropWhile isBlank = s := by
  cases s with
  | nil => rfl
  | cons c s => rw [List.dropWhile_cons, if_neg (by rw [h c List.mem_cons_self]; decide)]

theorem strip_noBlank {s : Str} (h : ∀ c ∈ s, isBlank c = false) : strip s = s := by
  rw [strip, dropWhile_noBlank h, dropWhile_noBlank fun c hc => h c (List.mem_reverse.1 hc), List.reverse_reverse]

theorem strip_clean {s : Str} (h : Spotless s) : strip s = s := strip_noBlank fun c hc => by
  have := h c hc
  simp only [cleanChar, Bool.and_eq_true, Bool.not_eq_true'] at this
  exact this.2

/-! ### Reading a row -/

/-- In a row, between cells. -/
def inRow (done : List (List (Str × Str) × List Cell)) (attrs : List (Str × Str)) (cells : List Cell) : TableState := ⟨done, some (attrs, cells), none, false⟩

/-- In a cell. -/
def inCell (done : List (List (Str × Str) × List Cell)) (attrs : List (Str × Str)) (cells : List Cell) (x : Cell) : TableState :=
  ⟨done, some (attrs, cells), some x, false⟩

/-- The tags in rows. -/
def rowTag (name : Str) : Bool := name ∈ [str% "tr", str% "td", str% "a", str% "p", str% "sup", str% "small"]

/-- Characters, and tags that occur in rows. -/
def rowToken : Token → Bool
  | .char _ => true
  | .start name _ => rowTag name
  | .stop name => rowTag name

theorem rowToken_chars (s : Str) : (s.map Token.char).all rowToken = true := by
  rw [List.all_eq_true]
  intro t ht
  obtain ⟨c, -, rfl⟩ := List.mem_map.1 ht
  rfl

theorem not_rowToken {ts : List Token} {t : Token} (h : ts.all rowToken = true) (ht : rowToken t = false) : t ∉ ts := by
  intro hm
  rw [List.all_eq_true] at h
  rw [h t hm] at ht
  cases ht

/-- The text takes the reader of the table from one state to another, has no other tags than those of rows, and all identifiers in it have a dot. -/
def TableMoves (s : Str) (p q : TableState) : Prop :=
  ∃ ts, Whole s ts ∧ ts.all rowToken = true ∧ (∀ i ∈ ids ts, '.' ∈ i) ∧ ts.foldl stepTable p = q

theorem moves_append {a b : Str} {p q r : TableState} (h1 : TableMoves a p q) (h2 : TableMoves b q r) : TableMoves (a ++ b) p r := by
  obtain ⟨t, w1, n1, i1, f1⟩ := h1
  obtain ⟨u, w2, n2, i2, f2⟩ := h2
  refine ⟨t ++ u, whole_append w1 w2, ?_, ?_, ?_⟩
  · rw [List.all_append, n1, n2]; rfl
  · rw [ids_append]
    intro i hi
    rcases List.mem_append.1 hi with hi | hi
    · exact i1 i hi
    · exact i2 i hi
  · rw [List.foldl_append, f1, f2]

theorem moves_const {s : Str} {ts : List Token} {p q : TableState} (h : feed (.text .data) s = (.text .data, ts)) (hn : ts.all rowToken = true)
    (hi : ids ts = []) (hf : ts.foldl stepTable p = q) : TableMoves s p q := ⟨ts, h, hn, by rw [hi]; simp, hf⟩

theorem fold_chars_cell (done : List (List (Str × Str) × List Cell)) (attrs : List (Str × Str)) (cells : List Cell) (x : Cell) (s : Str) :
    (s.map Token.char).foldl stepTable (inCell done attrs cells x) = inCell done attrs cells { x with text := x.text ++ s } := by
  induction s generalizing x with
  | nil => simp
  | cons c s ih =>
    rw [List.map_cons, List.foldl_cons]
    have := ih { x with text := x.text ++ [c] }
    simp only [List.append_assoc, List.singleton_append] at this
    exact this

theorem moves_chars {s : Str} {done : List (List (Str × Str) × List Cell)} {attrs : List (Str × Str)} {cells : List Cell} {x : Cell} {u : Str}
    (h : Whole u (s.map .char)) : TableMoves u (inCell done attrs cells x) (inCell done attrs cells { x with text := x.text ++ s }) :=
  ⟨_, h, rowToken_chars _, by rw [ids_chars]; simp, fold_chars_cell _ _ _ _ _⟩

/-- The text of constant parts of rows. -/
def sp4 : Str := str% "\n\t\t\t\t"
def sp5 : Str := str% "\n\t\t\t\t\t"
def sp6 : Str := str% "\n\t\t\t\t\t\t"

section
variable (done : List (List (Str × Str) × List Cell)) (attrs : List (Str × Str)) (cells : List Cell) (x : Cell)

/-- Between rows. -/
def betweenRows : TableState := ⟨done, none, none, false⟩

theorem moves_rowSpace : TableMoves rowSpace (betweenRows done) (betweenRows done) :=
  moves_const (ts := rowSpace.map .char) (by decide +kernel) (by decide +kernel) (by decide +kernel) rfl

theorem moves_rowStart (i : Str) (h : Inert i) (hd : '.' ∈ i) :
    TableMoves (str% "<tr id=\"" ++ i ++ str% "\">") (betweenRows done) (inRow done [(str% "id", i)] []) := by
  refine ⟨[.start (str% "tr") [(str% "id", i)]], ?_, rfl, ?_, rfl⟩
  · exact feed_append_of (feed_append_of (st1 := .text (.quoted '"' ⟨false, str% "tr", []⟩ (str% "id") [])) (t1 := []) (by decide +kernel)
      (feed_inert_quoted _ _ _ _ h)) rfl
  · intro j hj
    have e : ids [Token.start (str% "tr") [(str% "id", i)]] = [i] := rfl
    rw [e, List.mem_singleton] at hj
    exact hj ▸ hd

theorem moves_rowFile : TableMoves rowFile (inRow done attrs cells) (inCell done attrs cells ⟨[], sp5, [], []⟩) :=
  moves_const (ts := sp4.map .char ++ [.start (str% "td") []] ++ sp5.map .char) (by decide +kernel) (by decide +kernel) (by decide +kernel) rfl

theorem moves_rowFileEnd : TableMoves rowFileEnd (inCell done attrs cells x) (inRow done attrs (cells ++ [{ x with text := x.text ++ sp4 }])) := by
  refine moves_const (ts := sp4.map .char ++ ([.stop (str% "td")] ++ sp4.map .char)) (by decide +kernel) (by decide +kernel) (by decide +kernel) ?_
  rw [List.foldl_append, fold_chars_cell]
  rfl

/-- The attributes of the cell of the name. -/
def nameAttrs (warn : Bool) : List (Str × Str) := if warn then [(str% "class", str% "text-warning")] else []

theorem moves_rowName (warn : Bool) : TableMoves (if warn then rowNameWarn else rowNamePlain) (inRow done attrs cells)
    (inCell done attrs cells ⟨nameAttrs warn, sp4, [], []⟩) := by
  cases warn with
  | true =>
    exact moves_const (s := rowNameWarn) (ts := sp5.map .char ++ [.start (str% "td") [(str% "class", str% "text-warning")]] ++ sp4.map .char)
        (by decide +kernel) (by decide +kernel) (by decide +kernel) rfl
  | false =>
    exact moves_const (s := rowNamePlain) (ts := sp6.map .char ++ [.start (str% "td") []] ++ sp4.map .char) (by decide +kernel) (by decide +kernel) (by decide +kernel) rfl

theorem moves_rowNameSpace : TableMoves rowNameSpace (inCell done attrs cells x) (inCell done attrs cells { x with text := x.text ++ sp5 }) :=
  moves_chars (by decide +kernel : feed (.text .data) rowNameSpace = (.text .data, sp5.map .char))

theorem moves_rowCellText : TableMoves rowCellText (inCell done attrs cells x) (inCell done attrs cells { x with text := x.text ++ sp5 }) :=
  moves_chars (by decide +kernel : feed (.text .data) rowNameSpace = (.text .data, sp5.map .char))

theorem moves_rowLinkOpen : TableMoves rowLinkOpen (inCell done attrs cells x) (inCell done attrs cells { x with text := x.text ++ (sp5 ++ sp6) }) := by
  refine moves_const (ts := sp5.map .char ++ ([.start (str% "sup") []] ++ sp6.map .char)) (by decide +kernel) (by decide +kernel) (by decide +kernel) ?_
  rw [List.foldl_append, fold_chars_cell, List.foldl_append]
  have : List.foldl stepTable (inCell done attrs cells { x with text := x.text ++ sp5 }) [Token.start (str% "sup") []] =
    inCell done attrs cells { x with text := x.text ++ sp5 } := rfl
  rw [this, fold_chars_cell]
  simp only [List.append_assoc]

/-- In a link in a cell. -/
def inLink : TableState := ⟨done, some (attrs, cells), some x, true⟩

theorem moves_linkOpen (href : Str) (h : Inert href) : TableMoves (str% "<a href=\"" ++ href ++ str% "\">") (inCell done attrs cells x)
    (inLink done attrs cells { x with links := x.links ++ [href] }) := by
  refine moves_const (ts := [.start (str% "a") [(str% "href", href)]]) ?_ rfl rfl rfl
  exact feed_append_of (feed_append_of (st1 := .text (.quoted '"' ⟨false, str% "a", []⟩ (str% "href") [])) (t1 := []) (by decide +kernel)
    (feed_inert_quoted _ _ _ _ h)) rfl

theorem moves_rowLinkEnd : TableMoves rowLinkEnd (inLink done attrs cells x) (inRow done attrs (cells ++ [{ x with text := x.text ++ (sp5 ++ sp4) }])) := by
  refine moves_const (ts := [.char '🔗', .stop (str% "a")] ++ (sp5.map .char ++ ([.stop (str% "sup")] ++ (sp4.map .char
    ++ ([.stop (str% "td")] ++ (str% "\n\n\t\t\t\t").map .char))))) (by decide +kernel) (by decide +kernel) (by decide +kernel) ?_
  rw [List.foldl_append]
  have : List.foldl stepTable (inLink done attrs cells x) [Token.char '🔗', Token.stop (str% "a")] = inCell done attrs cells x := rfl
  rw [this, List.foldl_append, fold_chars_cell, List.foldl_append]
  have : List.foldl stepTable (inCell done attrs cells { x with text := x.text ++ sp5 }) [Token.stop (str% "sup")] =
    inCell done attrs cells { x with text := x.text ++ sp5 } := rfl
  rw [this, List.foldl_append, fold_chars_cell]
  simp only [List.append_assoc]
  rfl

theorem moves_keyedCell (key : Str) (h : Spotless key) :
    TableMoves (keyedCell key) (inRow done attrs cells) (inCell done attrs cells ⟨[(str% "data-order", key)], [], [], []⟩) := by
  refine moves_const (ts := [.start (str% "td") [(str% "data-order", key)]]) ?_ rfl rfl rfl
  exact feed_append_of (feed_append_of (st1 := .text (.quoted '\'' ⟨false, str% "td", []⟩ (str% "data-order") [])) (t1 := []) (by decide +kernel)
    (feed_clean_quoted _ _ _ _ h)) rfl

theorem moves_rowCellEnd : TableMoves rowCellEnd (inCell done attrs cells x) (inRow done attrs (cells ++ [{ x with text := x.text ++ sp4 }])) :=
  moves_rowFileEnd done attrs cells x

theorem moves_rowOldOpen : TableMoves rowOldOpen (inCell done attrs cells x) (inCell done attrs (cells ++ [{ x with text := x.text ++ sp4 }]) ⟨[], sp5, [], []⟩) := by
  refine moves_const (ts := sp4.map .char ++ ([.stop (str% "td")] ++ (str% "\n\n\t\t\t\t").map .char ++ [.start (str% "td") []] ++ sp5.map .char))
    (by decide +kernel) (by decide +kernel) (by decide +kernel) ?_
  rw [List.foldl_append, fold_chars_cell]
  rfl

theorem moves_rowNextOpen : TableMoves rowNextOpen (inCell done attrs cells x) (inCell done attrs (cells ++ [{ x with text := x.text ++ sp4 }]) ⟨[], sp5, [], []⟩) := by
  refine moves_const (ts := sp4.map .char ++ ([.stop (str% "td")] ++ sp4.map .char ++ [.start (str% "td") []] ++ sp5.map .char))
    (by decide +kernel) (by decide +kernel) (by decide +kernel) ?_
  rw [List.foldl_append, fold_chars_cell]
  rfl

theorem moves_rowEnd : TableMoves rowEnd (inCell done attrs cells x) (betweenRows (done ++ [(attrs, cells ++ [{ x with text := x.text ++ sp4 }])])) := by
  refine moves_const (ts := sp4.map .char ++ ([.stop (str% "td")] ++ (str% "\n\t\t\t").map .char ++ [.stop (str% "tr")] ++ (str% "\n\t\t").map .char))
    (by decide +kernel) (by decide +kernel) (by decide +kernel) ?_
  rw [List.foldl_append, fold_chars_cell]
  rfl

theorem moves_para (color text s : Str) (hc : Spotless color) (ht : Inert text) (hs : Para color text s) : TableMoves s (inCell done attrs cells x)
    (inCell done attrs cells { x with text := x.text ++ text, styles := x.styles ++ [str% "color:" ++ color] }) := by
  subst hs
  refine moves_append (moves_append (q := inCell done attrs cells { x with styles := x.styles ++ [str% "color:" ++ color] }) ?_ (moves_chars (whole_inert ht))) ?_
  · refine moves_const (ts := [.start (str% "p") [(str% "style", str% "color:" ++ color)]]) ?_ rfl rfl rfl
    exact feed_append_of (feed_append_of (st1 := .text (.quoted '\'' ⟨false, str% "p", []⟩ (str% "style") (str% "color:"))) (t1 := []) (by decide +kernel)
      (feed_clean_quoted _ _ _ _ hc)) rfl
  · exact moves_const (ts := [.stop (str% "p")]) (by decide +kernel) (by decide) rfl rfl

theorem moves_codeLink (repo org name file rev : Str) (h1 : Inert repo) (h2 : Inert org) (h3 : Inert name) (h4 : Inert file) (h5 : Inert rev) :
    TableMoves (codeLink repo org name file rev) (inCell done attrs cells x)
      (inCell done attrs cells { x with links := x.links ++ [str% "https://github.com/" ++ org ++ str% "/" ++ repo ++ str% "/tree/" ++ rev ++ str% "/" ++ file ++ str% "#:~:text=fn " ++ name] }) := by
  have hi : Inert (str% "https://github.com/" ++ org ++ str% "/" ++ repo ++ str% "/tree/" ++ rev ++ str% "/" ++ file ++ str% "#:~:text=fn " ++ name) := by
    repeat' refine inert_append ?_ ?_
    all_goals first | assumption | decide
  generalize he : (str% "https://github.com/" ++ org ++ str% "/" ++ repo ++ str% "/tree/" ++ rev ++ str% "/" ++ file ++ str% "#:~:text=fn " ++ name) = href at hi
  have e : codeLink repo org name file rev = str% "<a href=\"" ++ href ++ str% "\" target=\"_blank\"><sup><small>CODE</small></sup></a>" := by
    rw [← he, codeLink]
    simp only [List.append_assoc, List.cons_append, List.nil_append]
  rw [e]
  have hk : feed (.text (.quoted '"' ⟨false, str% "a", []⟩ (str% "href") href)) (str% "\" target=\"_blank\"><sup><small>CODE</small></sup></a>") =
      (.text .data, [.start (str% "a") [(str% "href", href), (str% "target", str% "_blank")], .start (str% "sup") [], .start (str% "small") []]
        ++ (str% "CODE").map .char ++ [.stop (str% "small"), .stop (str% "sup"), .stop (str% "a")]) := by
    have h1 : feed (.text (.quoted '"' ⟨false, str% "a", []⟩ (str% "href") href)) (str% "\" target=\"_blank\">") =
      (.text .data, [.start (str% "a") [(str% "href", href), (str% "target", str% "_blank")]]) := rfl
    have h2 : feed (.text .data) (str% "<sup><small>CODE</small></sup></a>") = (.text .data, [.start (str% "sup") [], .start (str% "small") []]
        ++ (str% "CODE").map .char ++ [.stop (str% "small"), .stop (str% "sup"), .stop (str% "a")]) := by decide +kernel
    have h3 : (str% "\" target=\"_blank\"><sup><small>CODE</small></sup></a>") = (str% "\" target=\"_blank\">") ++ (str% "<sup><small>CODE</small></sup></a>") := by
      decide +kernel
    rw [h3, feed_append_of h1 h2]
    rfl
  exact moves_const (feed_append_of (feed_append_of (st1 := .text (.quoted '"' ⟨false, str% "a", []⟩ (str% "href") [])) (t1 := []) (by decide +kernel)
    (feed_inert_quoted _ _ _ _ hi)) hk) rfl rfl rfl

end

/-! ### The contents of the cells -/

/-- A text puts text and styles into a cell. -/
def Puts (s text : Str) (styles : List Str) : Prop :=
  ∀ done attrs cells x, TableMoves s (inCell done attrs cells x) (inCell done attrs cells { x with text := x.text ++ text, styles := x.styles ++ styles })

theorem puts_plain {s : Str} (h : Inert s) : Puts s s [] := by
  intro done attrs cells x
  simpa using moves_chars (done := done) (attrs := attrs) (cells := cells) (x := x) (whole_inert h)

theorem puts_para {color text s : Str} (hc : Spotless color) (ht : Inert text) (hs : Para color text s) : Puts s text [str% "color:" ++ color] :=
  fun done attrs cells x => moves_para done attrs cells x color text s hc ht hs

theorem puts_percent (p : F64) (k : RelativeChange) : ∃ text styles, Puts (htmlColorPercent p k) text styles ∧ Spotless text ∧ ShownPercent k p text styles := by
  cases k with
  | unchanged => exact ⟨_, _, puts_para (color := str% "gray") (text := str% "Unchanged") (by decide) (by decide) rfl, by decide, rfl, rfl⟩
  | added => exact ⟨_, _, puts_para (color := str% "orange") (text := str% "Added") (by decide) (by decide) rfl, by decide, rfl, rfl⟩
  | removed => exact ⟨_, _, puts_para (color := str% "orange") (text := str% "Removed") (by decide) (by decide) rfl, by decide, rfl, rfl⟩
  | changed =>
    cases p with
    | nan => exact ⟨_, _, puts_plain (by decide : Inert (str% "NaN")), by decide, rfl, rfl⟩
    | pinf => exact ⟨_, _, puts_para (color := str% "red") (text := str% "+inf%") (by decide) (by decide) rfl, by decide, rfl, rfl⟩
    | ninf => exact ⟨_, _, puts_para (color := str% "green") (text := str% "-inf%") (by decide) (by decide) rfl, by decide, rfl, rfl⟩
    | fin q =>
      have hw := C59_web_percent (fin q)
      rcases lt_trichotomy q 0 with hq | hq | hq
      · have hlt : F64.lt (fin q) (fin 0) = true := by simp [F64.lt, hq]
        have e : htmlColorPercent (fin q) .changed = str% "<p style='color:green'>-" ++ F64.fmt2 (F64.abs (fin q)) ++ str% "%</p>" := by
          simp [htmlColorPercent, hlt]
        have hab : F64.abs (fin q) = fin (-q) := by simp [F64.abs, abs_of_neg hq]
        have hf : F64.fmt2 (fin (-q)) = fmt2Nonneg (-q) := by simp [F64.fmt2, not_lt.2 (neg_nonneg.2 hq.le)]
        rw [hab, hf] at e
        have hs : Spotless (str% "-" ++ fmt2Nonneg (-q) ++ str% "%") := spotless_append (spotless_append (by decide) (clean_fmt2Nonneg _)) (by decide)
        refine ⟨_, _, puts_para (color := str% "green") (text := str% "-" ++ fmt2Nonneg (-q) ++ str% "%") (by decide) (inert_of_clean hs) ?_, hs, ?_⟩
        · rw [e, Para]; simp
        · exact ⟨fun _ => ⟨rfl, _, rfl, shows_fmt2Nonneg (neg_nonneg.2 hq.le)⟩, fun h => absurd h (not_lt.2 hq.le), fun h => absurd h hq.ne⟩
      · subst hq
        rw [hw.2.2.1 rfl]
        exact ⟨_, _, puts_plain (by decide : Inert (str% "0")), by decide, fun h => absurd h (lt_irrefl _), fun h => absurd h (lt_irrefl _), fun _ => ⟨rfl, rfl⟩⟩
      · have hlt : F64.lt (fin 0) (fin q) = true := by simp [F64.lt, hq]
        have hlt' : F64.lt (fin q) (fin 0) = false := by simp [F64.lt, hq.le]
        have e : htmlColorPercent (fin q) .changed = str% "<p style='color:red'>+" ++ F64.fmt2 (F64.abs (fin q)) ++ str% "%</p>" := by
          simp [htmlColorPercent, hlt, hlt']
        have hab : F64.abs (fin q) = fin q := by simp [F64.abs, abs_of_pos hq]
        have hf : F64.fmt2 (fin q) = fmt2Nonneg q := by simp [F64.fmt2, not_lt.2 hq.le]
        rw [hab, hf] at e
        have hs : Spotless (str% "+" ++ fmt2Nonneg q ++ str% "%") := spotless_append (spotless_append (by decide) (clean_fmt2Nonneg _)) (by decide)
        refine ⟨_, _, puts_para (color := str% "red") (text := str% "+" ++ fmt2Nonneg q ++ str% "%") (by decide) (inert_of_clean hs) ?_, hs, ?_⟩
        · rw [e, Para]; simp
        · exact ⟨fun h => absurd h (not_lt.2 hq.le), fun _ => ⟨rfl, _, rfl, shows_fmt2Nonneg hq.le⟩, fun h => absurd h hq.ne'⟩

theorem puts_abs {b : Build} {c : TermChange} {unit : Dimension} {s : Str} (h : htmlColorAbs b c unit = .ok s) :
    ∃ text styles, Puts s text styles ∧ Spotless text ∧ ShownDifference unit c text styles := by
  unfold htmlColorAbs at h
  cases hk : c.change with
  | unchanged =>
    rw [hk] at h; cases h
    exact ⟨_, _, puts_para (color := str% "gray") (text := str% "Unchanged") (by decide) (by decide) rfl, by decide, by rw [ShownDifference, hk]; exact ⟨rfl, rfl⟩⟩
  | added =>
    rw [hk] at h; cases h
    exact ⟨_, _, puts_para (color := str% "orange") (text := str% "Added") (by decide) (by decide) rfl, by decide, by rw [ShownDifference, hk]; exact ⟨rfl, rfl⟩⟩
  | removed =>
    rw [hk] at h; cases h
    exact ⟨_, _, puts_para (color := str% "orange") (text := str% "Removed") (by decide) (by decide) rfl, by decide, by rw [ShownDifference, hk]; exact ⟨rfl, rfl⟩⟩
  | changed =>
    rw [hk] at h
    obtain ⟨d, hd, h⟩ := bind_eq_ok h
    injection h with h
    have hex : ∀ o n, c.oldV = some o → c.newV = some n → o < 2 ^ 127 → n < 2 ^ 127 → d = (n : ℤ) - o := by
      intro o n ho hn bo bn
      rw [absDiff_exact ho hn bo bn] at hd
      injection hd with hd
      exact hd.symm
    have hgood : ∀ m, m < 2 ^ 127 → GoodRendering (unitTable unit) m (unit.fmtValue m) := by
      intro m hm
      have := C13_fmt_value unit m (lt_trans hm (by norm_num))
      cases unit <;> exact this
    rcases lt_trichotomy d 0 with h0 | h0 | h0
    · rw [if_pos h0] at h
      have hs : Spotless (str% "-" ++ unit.fmtValue d.natAbs) := spotless_append (by decide) (clean_fmtValue _ _)
      refine ⟨_, _, puts_para (color := str% "green") (text := str% "-" ++ unit.fmtValue d.natAbs) (by decide) (inert_of_clean hs) ?_, hs, ?_⟩
      · rw [← h, Para]; simp
      · rw [ShownDifference, hk]
        intro o n ho hn bo bn
        have e := hex o n ho hn bo bn
        refine ⟨fun hlt => ⟨rfl, _, rfl, ?_⟩, fun hlt => absurd hlt (by omega), fun he => absurd he (by omega)⟩
        have : d.natAbs = o - n := by omega
        rw [this]
        exact hgood _ (by omega)
    · subst h0
      simp only [lt_irrefl, if_false] at h
      subst h
      refine ⟨_, _, puts_plain (by decide : Inert (str% "0")), by decide, ?_⟩
      rw [ShownDifference, hk]
      intro o n ho hn bo bn
      have e := hex o n ho hn bo bn
      exact ⟨fun hlt => absurd hlt (by omega), fun hlt => absurd hlt (by omega), fun _ => ⟨rfl, rfl⟩⟩
    · rw [if_neg (not_lt.2 h0.le), if_pos h0] at h
      have hs : Spotless (str% "+" ++ unit.fmtValue d.natAbs) := spotless_append (by decide) (clean_fmtValue _ _)
      refine ⟨_, _, puts_para (color := str% "red") (text := str% "+" ++ unit.fmtValue d.natAbs) (by decide) (inert_of_clean hs) ?_, hs, ?_⟩
      · rw [← h, Para]; simp
      · rw [ShownDifference, hk]
        intro o n ho hn bo bn
        have e := hex o n ho hn bo bn
        refine ⟨fun hlt => absurd hlt (by omega), fun hlt => ⟨rfl, _, rfl, ?_⟩, fun he => absurd he (by omega)⟩
        have : d.natAbs = n - o := by omega
        rw [this]
        exact hgood _ (by omega)

/-- The text of a weight. -/
def weightText (unit : Dimension) (v : Option ℕ) : Str := (v.map unit.fmtValue).getD (str% "-")

theorem shown_weight (unit : Dimension) (v : Option ℕ) : ShownWeight unit v (strip (sp5 ++ weightText unit v ++ sp4)) := by
  rw [strip_pad _ (by decide) (by decide)]
  cases v with
  | none => exact strip_clean (s := str% "-") (by decide)
  | some v =>
    rw [weightText, Option.map_some, Option.getD_some, strip_clean (clean_fmtValue _ _)]
    intro hv
    have := C13_fmt_value unit v hv
    cases unit <;> exact this

/-- Text and links of the cell of an equation. -/
def termText (t : Option SimpleTerm) : Str :=
  match t with
  | some t => str% " " ++ Term.display Dimension.fmtScalar t
  | none => str% "-"

def termLinks (org repo rev file name : Str) (t : Option SimpleTerm) : List Str :=
  match t with
  | some _ => [str% "https://github.com/" ++ org ++ str% "/" ++ repo ++ str% "/tree/" ++ rev ++ str% "/" ++ file ++ str% "#:~:text=fn " ++ name]
  | none => []

theorem moves_term {repo org name file rev : Str} {t : Option SimpleTerm} (h1 : Inert repo) (h2 : Inert org) (h3 : Inert name) (h4 : Inert file) (h5 : Inert rev)
    (ht : ∀ u, t = some u → ∀ x, Occurs x u → Inert x) (done : List (List (Str × Str) × List Cell)) (attrs : List (Str × Str)) (cells : List Cell) (x : Cell) :
    TableMoves (pageTerm repo org name file rev t) (inCell done attrs cells x)
      (inCell done attrs cells { x with text := x.text ++ termText t, links := x.links ++ termLinks org repo rev file name t }) := by
  cases t with
  | none => simpa [pageTerm, termText, termLinks] using moves_chars (done := done) (attrs := attrs) (cells := cells) (x := x) (whole_inert (by decide : Inert (str% "-")))
  | some t =>
    have m := moves_codeLink done attrs cells x repo org name file rev h1 h2 h3 h4 h5
    have m := moves_append m (moves_chars (whole_inert (by decide : Inert (str% " "))))
    have m := moves_append m (moves_chars (whole_inert (inert_display (ht t rfl))))
    have e : pageTerm repo org name file rev (some t) = codeLink repo org name file rev ++ str% " " ++ Term.display Dimension.fmtScalar t := rfl
    rw [e, termText, termLinks, ← List.append_assoc]
    exact m

theorem shown_term (org repo rev file name : Str) (t : Option SimpleTerm) :
    ShownEquation org repo rev file name t ⟨[], sp5 ++ termText t ++ sp4, termLinks org repo rev file name t, []⟩ := by
  cases t with
  | none =>
    refine ⟨?_, rfl⟩
    show strip (sp5 ++ str% "-" ++ sp4) = _
    rw [strip_pad _ (by decide) (by decide)]
    exact strip_clean (s := str% "-") (by decide)
  | some t =>
    refine ⟨?_, rfl⟩
    show strip (sp5 ++ (str% " " ++ Term.display Dimension.fmtScalar t) ++ sp4) = _
    rw [← List.append_assoc, strip_pad _ (by decide) (by decide)]

theorem readInt_intToStr (z : ℤ) : readInt (intToStr z) = some z := by
  unfold intToStr
  split
  · rename_i h
    rw [readInt, readNat_natToStr]
    refine congrArg some ?_
    dsimp only
    omega
  · rename_i h
    have hn : ∀ s, natToStr z.natAbs ≠ '-' :: s := by
      intro s he
      have := natToStr_isDigit (n := z.natAbs) (c := '-') (by rw [he]; exact List.mem_cons_self)
      revert this
      decide
    have e : readInt (natToStr z.natAbs) = (readNat (natToStr z.natAbs)).map fun n => (n : ℤ) := by
      cases hs : natToStr z.natAbs with
      | nil => rfl
      | cons c s =>
        by_cases hc : c = '-'
        · exact absurd (hc ▸ hs) (hn s)
        · rw [readInt]
          simp [hc]
    rw [e, readNat_natToStr]
    refine congrArg some ?_
    dsimp only
    omega

/-! ### Rows -/

theorem orderAbs_key {b : Build} {c : TermChange} {key : ℤ} (h : orderAbs b c = .ok key) (o n : ℕ) (hk : c.change = .changed) (ho : c.oldV = some o)
    (hn : c.newV = some n) (bo : o < 2 ^ 127) (bn : n < 2 ^ 127) : key = (n : ℤ) - o :=
  Res.ok.inj (h.symm.trans (C58_key b c o n hk ho hn bo bn))

theorem orderAbs_other {b : Build} {c : TermChange} {key : ℤ} (h : orderAbs b c = .ok key) :
    (c.change = .added → key = 2 ^ 127 - 1) ∧ (c.change = .removed → key = -2 ^ 127) ∧ (c.change = .unchanged → key = 0) := by
  unfold orderAbs at h
  refine ⟨fun e => ?_, fun e => ?_, fun e => ?_⟩ <;> rw [e] at h <;> exact (Res.ok.inj h).symm

theorem row_moves {b : Build} {org : Str} {a : CompareArgs} {e : ExtrinsicDiff} {c : TermChange} {s : Str} (h : pageRow b org a e c = .ok s)
    (hc : numbers e.change = some c) (he : InertEntry e) (h1 : Inert org) (h2 : Inert a.repo) (h3 : Inert a.old) (h4 : Inert a.new) :
    ∃ attrs c0 c1 c2 c3 c4 c5 c6 c7 c8, RowShows org a e c attrs c0 c1 c2 c3 c4 c5 c6 c7 c8 ∧
      ∀ done, TableMoves s (betweenRows done) (betweenRows (done ++ [(attrs, [c0, c1, c2, c3, c4, c5, c6, c7, c8])])) := by
  unfold pageRow at h
  obtain ⟨key, hkey, h⟩ := bind_eq_ok h
  obtain ⟨abs, habs, h⟩ := bind_eq_ok h
  injection h with h
  obtain ⟨pt, ps, hp, hpc, hps⟩ := puts_percent c.percent c.change
  obtain ⟨at', as', ha, hac, has⟩ := puts_abs habs
  have hid : Inert (e.file ++ str% "." ++ e.name) := inert_append (inert_append he.file (by decide)) he.name
  have hid' : Inert (str% "#" ++ e.file ++ str% "." ++ e.name) :=
    inert_append (inert_append (inert_append (by decide) he.file) (by decide)) he.name
  refine ⟨[(str% "id", e.file ++ str% "." ++ e.name)], ⟨[], sp5 ++ e.file ++ sp4, [], []⟩,
    ⟨nameAttrs e.warning.isSome, sp4 ++ sp5 ++ e.name ++ (sp5 ++ sp6) ++ (sp5 ++ sp4), [str% "#" ++ e.file ++ str% "." ++ e.name], []⟩,
    ⟨[(str% "data-order", natToStr (c.oldV.getD 0))], sp5 ++ weightText a.unit c.oldV ++ sp4, [], []⟩,
    ⟨[(str% "data-order", natToStr (c.newV.getD 0))], sp5 ++ weightText a.unit c.newV ++ sp4, [], []⟩,
    ⟨[(str% "data-order", intToStr (orderPercent c))], sp5 ++ pt ++ sp4, [], ps⟩,
    ⟨[(str% "data-order", intToStr key)], sp5 ++ at' ++ sp4, [], as'⟩,
    ⟨[], sp5 ++ termText c.old ++ sp4, termLinks org a.repo a.old e.file e.name c.old, []⟩,
    ⟨[], sp5 ++ termText c.new ++ sp4, termLinks org a.repo a.new e.file e.name c.new, []⟩,
    ⟨[], sp5 ++ Scope.display (Term.display Dimension.fmtScalar) c.scope ++ sp4, [], []⟩, ?_, ?_⟩
  · exact {
      id := rfl
      file := strip_pad _ (by decide) (by decide)
      name := by
        show strip (sp4 ++ sp5 ++ e.name ++ (sp5 ++ sp6) ++ (sp5 ++ sp4)) = _
        rw [List.append_assoc _ (sp5 ++ sp6)]
        exact strip_pad _ (by decide) (by decide)
      link := by
        show [_] = [_]
        simp only [List.append_assoc]
      warned := by
        show (nameAttrs e.warning.isSome).lookup _ = _ ↔ _
        unfold ExtrinsicDiff.warning
        cases hk : e.change with
        | changed d => simp [nameAttrs]
        | failed m => rw [hk] at hc; cases hc
        | warning d m =>
          rw [hk] at hc
          cases hc
          simp [nameAttrs]
      oldKey := readNat_natToStr _
      old := shown_weight _ _
      newKey := readNat_natToStr _
      new := shown_weight _ _
      relKey := readInt_intToStr _
      rel := by
        show ShownPercent _ _ (strip (sp5 ++ pt ++ sp4)) _
        rw [strip_pad _ (by decide) (by decide), strip_clean hpc]
        exact hps
      absKey := fun o n hk ho hn bo bn => (readInt_intToStr key).trans (congrArg some (orderAbs_key hkey o n hk ho hn bo bn))
      absOther := ⟨key, readInt_intToStr key, orderAbs_other hkey⟩
      abs := by
        show ShownDifference _ _ (strip (sp5 ++ at' ++ sp4)) _
        rw [strip_pad _ (by decide) (by decide), strip_clean hac]
        exact has
      oldTerm := shown_term _ _ _ _ _ _
      newTerm := shown_term _ _ _ _ _ _
      scope := strip_pad _ (by decide) (by decide) }
  · intro done
    have m := moves_rowSpace done
    have m := moves_append m (moves_rowStart done _ hid (by simp))
    have m := moves_append m (moves_rowFile done _ _)
    have m := moves_append m (moves_chars (whole_escape e.file))
    have m := moves_append m (moves_rowFileEnd done _ _ _)
    have m := moves_append m (moves_rowName done _ _ e.warning.isSome)
    have m := moves_append m (moves_rowNameSpace done _ _ _)
    have m := moves_append m (moves_chars (whole_escape e.name))
    have m := moves_append m (moves_rowLinkOpen done _ _ _)
    have m := moves_append m (moves_linkOpen done _ _ _ _ hid')
    have m := moves_append m (moves_rowLinkEnd done _ _ _)
    have m := moves_append m (moves_keyedCell done _ _ _ (clean_natToStr (c.oldV.getD 0)))
    have m := moves_append m (moves_rowCellText done _ _ _)
    have m := moves_append m (moves_chars (whole_escape (weightText a.unit c.oldV)))
    have m := moves_append m (moves_rowCellEnd done _ _ _)
    have m := moves_append m (moves_keyedCell done _ _ _ (clean_natToStr (c.newV.getD 0)))
    have m := moves_append m (moves_rowCellText done _ _ _)
    have m := moves_append m (moves_chars (whole_escape (weightText a.unit c.newV)))
    have m := moves_append m (moves_rowCellEnd done _ _ _)
    have m := moves_append m (moves_keyedCell done _ _ _ (clean_intToStr (orderPercent c)))
    have m := moves_append m (moves_rowCellText done _ _ _)
    have m := moves_append m (hp done _ _ _)
    have m := moves_append m (moves_rowCellEnd done _ _ _)
    have m := moves_append m (moves_keyedCell done _ _ _ (clean_intToStr key))
    have m := moves_append m (moves_rowCellText done _ _ _)
    have m := moves_append m (ha done _ _ _)
    have m := moves_append m (moves_rowOldOpen done _ _ _)
    have m := moves_append m (moves_term h2 h1 he.name he.file h3 (fun t ht => he.old c t hc ht) done _ _ _)
    have m := moves_append m (moves_rowNextOpen done _ _ _)
    have m := moves_append m (moves_term h2 h1 he.name he.file h4 (fun t ht => he.new c t hc ht) done _ _ _)
    have m := moves_append m (moves_rowNextOpen done _ _ _)
    have m := moves_append m (moves_chars (whole_escape (Scope.display (Term.display Dimension.fmtScalar) c.scope)))
    have m := moves_append m (moves_rowEnd done _ _ _)
    rw [← h]
    exact m

/-- A row with its nine cells. -/
def ShowsRow (org : Str) (a : CompareArgs) (p : ExtrinsicDiff × TermChange) (row : List (Str × Str) × List Cell) : Prop :=
  ∃ c0 c1 c2 c3 c4 c5 c6 c7 c8, row.2 = [c0, c1, c2, c3, c4, c5, c6, c7, c8] ∧ RowShows org a p.1 p.2 row.1 c0 c1 c2 c3 c4 c5 c6 c7 c8

theorem moves_nil (p : TableState) : TableMoves [] p p := moves_const (ts := []) rfl rfl rfl rfl

theorem rows_move {b : Build} {org : Str} {a : CompareArgs} {l : List (ExtrinsicDiff × TermChange)} {rows : List Str}
    (h : l.mapM (fun p => pageRow b org a p.1 p.2) = .ok rows) (hl : ∀ p ∈ l, numbers p.1.change = some p.2 ∧ InertEntry p.1)
    (h1 : Inert org) (h2 : Inert a.repo) (h3 : Inert a.old) (h4 : Inert a.new) :
    ∃ table, List.Forall₂ (ShowsRow org a) l table ∧ ∀ done, TableMoves rows.flatten (betweenRows done) (betweenRows (done ++ table)) := by
  rw [mapM_ok_iff] at h
  induction h with
  | nil => exact ⟨[], .nil, fun done => by rw [List.append_nil]; exact moves_nil _⟩
  | @cons p s l rows hp _ ih =>
    obtain ⟨table, ht, hm⟩ := ih fun q hq => hl q (List.mem_cons_of_mem _ hq)
    obtain ⟨hn, hi⟩ := hl p List.mem_cons_self
    obtain ⟨attrs, c0, c1, c2, c3, c4, c5, c6, c7, c8, hr, hmv⟩ := row_moves hp hn hi h1 h2 h3 h4
    refine ⟨(attrs, [c0, c1, c2, c3, c4, c5, c6, c7, c8]) :: table, .cons ⟨c0, c1, c2, c3, c4, c5, c6, c7, c8, rfl, hr⟩ ht, fun done => ?_⟩
    have := moves_append (hmv done) (hm (done ++ [(attrs, [c0, c1, c2, c3, c4, c5, c6, c7, c8])]))
    rwa [List.append_assoc] at this

/-! ### Messages -/

/-- The tokens of a list of messages. -/
def messageTokens (opening lead : Str) (messages : List Str) : List Token :=
  if messages = [] then []
  else tokens opening ++ (natToStr messages.length).map .char ++ tokens lead
    ++ messages.flatMap (fun m => tokens pageLineSpace ++ m.map .char ++ tokens pageLineEnd) ++ tokens pageListEnd

theorem whole_messages {opening lead : Str} {messages : List Str} (ho : (feed (.text .data) opening).1 = .text .data)
    (hl : (feed (.text .data) lead).1 = .text .data) (hm : ∀ m ∈ messages, Inert m) :
    Whole (pageMessages opening lead messages) (messageTokens opening lead messages) := by
  unfold pageMessages messageTokens
  split
  · rfl
  · refine whole_append (whole_append (whole_append (whole_append (whole_of ho) (whole_inert (inert_of_clean (clean_natToStr _)))) (whole_of hl)) ?_)
      (whole_of (by decide +kernel))
    exact whole_flatMap fun m h => whole_append (whole_append (whole_of (by decide +kernel)) (whole_inert (hm m h))) (whole_of (by decide +kernel))

theorem ids_messages {opening lead id : Str} {messages : List Str} (ho : ids (tokens opening) = []) (hl : ids (tokens lead) = [id]) :
    ids (messageTokens opening lead messages) = if messages = [] then [] else [id] := by
  unfold messageTokens
  split
  · rfl
  · have h1 : ids (messages.flatMap fun m => tokens pageLineSpace ++ m.map .char ++ tokens pageLineEnd) = [] := by
      apply ids_flatMap
      intro m
      have e1 : ids (tokens pageLineSpace) = [] := by decide +kernel
      have e2 : ids (tokens pageLineEnd) = [] := by decide +kernel
      rw [ids_append, ids_append, e1, e2, ids_chars]
      rfl
    have h2 : ids (tokens pageListEnd) = [] := by decide +kernel
    rw [ids_append, ids_append, ids_append, ids_append, ho, hl, h1, h2, ids_chars]
    rfl

theorem breakLines_blank {acc : Str} {w : Str} (rest : List Token) : breakLines acc (w.map .char ++ rest) = breakLines (acc ++ w) rest := by
  induction w generalizing acc with
  | nil => simp
  | cons c w ih =>
    rw [List.map_cons, List.cons_append, breakLines, ih]
    simp

theorem breakLines_messages {acc : Str} (messages : List Str) (ha : Blanks acc) (rest : List Token) :
    ∃ w, Blanks w ∧ breakLines acc (messages.flatMap (fun m => tokens pageLineSpace ++ m.map .char ++ tokens pageLineEnd) ++ rest) =
      messages.map strip ++ breakLines w rest := by
  have e1 : tokens pageLineSpace = sp5.map .char := by decide +kernel
  have e2 : tokens pageLineEnd = Token.start (str% "br") [] :: sp4.map .char := by decide +kernel
  induction messages generalizing acc with
  | nil => exact ⟨acc, ha, rfl⟩
  | cons m messages ih =>
    obtain ⟨w, hw, e⟩ := ih (acc := sp4) (by decide)
    refine ⟨w, hw, ?_⟩
    rw [List.flatMap_cons, e1, e2]
    rw [e1, e2] at e
    simp only [List.append_assoc, List.cons_append] at e ⊢
    rw [breakLines_blank, breakLines_blank, breakLines, if_pos rfl, breakLines_blank, List.nil_append, e, List.map_cons, List.cons_append]
    congr 1
    have := strip_pad (u := acc ++ sp5) (w := []) m (blanks_append ha (by decide)) (by decide)
    rwa [List.append_nil] at this

theorem afterId_none {id : Str} {ts : List Token} (h : id ∉ ids ts) : afterId id ts = [] := by
  have := afterId_skip (b := []) h
  rw [List.append_nil] at this
  rw [this]
  rfl

theorem takeWhile_hit {t : Token} {c : List Token} (r : List Token) (h : t ∈ c) : (c ++ r).takeWhile (· ≠ t) = c.takeWhile (· ≠ t) := by
  induction c with
  | nil => exact absurd h List.not_mem_nil
  | cons u c ih =>
    rw [List.cons_append, List.takeWhile_cons, List.takeWhile_cons]
    by_cases hu : u = t
    · simp [hu]
    · rw [ih ((List.mem_cons.1 h).resolve_left (Ne.symm hu))]

theorem takeWhile_pass {t : Token} {c : List Token} (r : List Token) (h : t ∉ c) : (c ++ r).takeWhile (· ≠ t) = c ++ r.takeWhile (· ≠ t) :=
  List.takeWhile_append_of_pos fun u hu => by
    simp only [decide_eq_true_eq]
    rintro rfl
    exact h hu

theorem dropWhile_hit {t : Token} {c : List Token} (r : List Token) (h : t ∈ c) : (c ++ r).dropWhile (· ≠ t) = c.dropWhile (· ≠ t) ++ r := by
  induction c with
  | nil => exact absurd h List.not_mem_nil
  | cons u c ih =>
    rw [List.cons_append, List.dropWhile_cons, List.dropWhile_cons]
    by_cases hu : u = t
    · simp [hu]
    · simp only [ne_eq, hu, not_false_eq_true, decide_true, if_true]
      exact ih ((List.mem_cons.1 h).resolve_left (Ne.symm hu))

/-- The lines of a list of messages. -/
theorem lines_messages {opening lead id : Str} {messages : List Str} {pre post : List Token} (ho : ids (tokens opening) = []) (hl : ids (tokens lead) = [id])
    (hpre : id ∉ ids pre) (hpost : id ∉ ids post)
    (hafter : ∃ w v attrs, Blanks w ∧ Blanks v ∧ afterId id (tokens lead) = w.map .char ++ (Token.start (str% "div") attrs :: v.map .char)) :
    linesOf (pre ++ messageTokens opening lead messages ++ post) id = messages.map strip := by
  rw [linesOf, List.append_assoc, afterId_skip hpre]
  unfold messageTokens
  by_cases hm : messages = []
  · rw [if_pos hm, List.nil_append, afterId_none hpost, hm]
    rfl
  · rw [if_neg hm]
    obtain ⟨w, v, attrs, hw, hv, e⟩ := hafter
    simp only [List.append_assoc]
    have hid1 : id ∉ ids (tokens opening) := by rw [ho]; simp
    have hid2 : id ∉ ids ((natToStr messages.length).map .char) := by rw [ids_chars]; simp
    rw [afterId_skip hid1, afterId_skip hid2, afterId_hit _ (by rw [hl]; simp), e]
    have n1 : Token.stop (str% "div") ∉ w.map Token.char ++ (Token.start (str% "div") attrs :: v.map Token.char) := by simp
    have n2 : Token.stop (str% "div") ∉ messages.flatMap (fun m => tokens pageLineSpace ++ (m.map Token.char ++ tokens pageLineEnd)) := by
      have e1 : Token.stop (str% "div") ∉ tokens pageLineSpace := by decide +kernel
      have e2 : Token.stop (str% "div") ∉ tokens pageLineEnd := by decide +kernel
      intro h
      obtain ⟨m, _, h⟩ := List.mem_flatMap.1 h
      rw [List.mem_append, List.mem_append] at h
      rcases h with h | h | h
      · exact e1 h
      · simp at h
      · exact e2 h
    have n3 : Token.stop (str% "div") ∈ tokens pageListEnd := by decide +kernel
    rw [takeWhile_pass _ n1, takeWhile_pass _ n2, takeWhile_hit _ n3]
    have e4 : (tokens pageListEnd).takeWhile (· ≠ .stop (str% "div")) = (str% "\n\t\t\t").map .char := by decide +kernel
    rw [e4, List.append_assoc, breakLines_blank, List.nil_append, List.cons_append, breakLines, if_neg (by decide), breakLines_blank]
    obtain ⟨u, hu, e5⟩ := breakLines_messages messages (blanks_append hw hv) ((str% "\n\t\t\t").map .char)
    simp only [List.append_assoc] at e5
    rw [e5]
    have : ∀ acc (w : Str), breakLines acc (w.map .char) = [] := by
      intro acc w
      have := breakLines_blank (acc := acc) (w := w) []
      rw [List.append_nil] at this
      rw [this]
      rfl
    rw [this, List.append_nil]

/-! ### The page -/

/-- The parts of the page. -/
theorem page_parts {b : Build} {version : Str} {repos : List Str} {org : Str} {a : CompareArgs} {diff : List ExtrinsicDiff} {wasCached : Bool} {page : Str}
    (hr : BareNames repos) (h1 : Inert org) (h2 : Inert a.repo) (h3 : Inert a.old) (h4 : Inert a.new) (he : ∀ e ∈ diff, InertEntry e)
    (h : comparePage b version repos org a diff wasCached = .ok page) :
    ∃ table rowTokens, List.Forall₂ (ShowsRow org a) (diff.filterMap fun e => (numbers e.change).map fun c => (e, c)) table ∧
      rowTokens.all rowToken = true ∧ (∀ i ∈ ids rowTokens, '.' ∈ i) ∧ rowTokens.foldl stepTable (betweenRows []) = betweenRows table ∧
      tokens page = controlTokens version repos a wasCached ++ messageTokens pageErrorsOpen pageErrorsLead (diff.filterMap ExtrinsicDiff.error)
        ++ tokens pageBetween ++ messageTokens pageWarningsOpen pageWarningsLead (diff.filterMap ExtrinsicDiff.warning) ++ tokens (pageHeader a.unit)
        ++ rowTokens ++ tokens pageBottom := by
  unfold comparePage at h
  obtain ⟨rows, hrows, h⟩ := bind_eq_ok h
  injection h with h
  have hf : (diff.filterMap fun e => e.term.map fun c => (e, c)) = diff.filterMap fun e => (numbers e.change).map fun c => (e, c) := by
    apply List.filterMap_congr
    intro e _
    unfold ExtrinsicDiff.term numbers
    cases e.change <;> rfl
  rw [hf] at hrows
  obtain ⟨table, ht, hm⟩ := rows_move hrows (fun p hp => by
    obtain ⟨e, hem, hp⟩ := List.mem_filterMap.1 hp
    obtain ⟨c, hc, rfl⟩ := Option.map_eq_some_iff.1 hp
    exact ⟨hc, he e hem⟩) h1 h2 h3 h4
  obtain ⟨ts, hw, hn, hi, hfold⟩ := hm []
  refine ⟨table, ts, ht, hn, hi, hfold, ?_⟩
  rw [← h]
  have herr : ∀ m ∈ diff.filterMap ExtrinsicDiff.error, Inert m := by
    intro m hm
    obtain ⟨e, hem, hm⟩ := List.mem_filterMap.1 hm
    unfold ExtrinsicDiff.error at hm
    cases hk : e.change with
    | failed x => rw [hk] at hm; cases hm; exact (he e hem).error _ hk
    | changed c => rw [hk] at hm; cases hm
    | warning c x => rw [hk] at hm; cases hm
  have hwarn : ∀ m ∈ diff.filterMap ExtrinsicDiff.warning, Inert m := by
    intro m hm
    obtain ⟨e, hem, hm⟩ := List.mem_filterMap.1 hm
    unfold ExtrinsicDiff.warning at hm
    cases hk : e.change with
    | failed x => rw [hk] at hm; cases hm
    | changed c => rw [hk] at hm; cases hm
    | warning c x => rw [hk] at hm; cases hm; exact (he e hem).warning _ _ hk
  have hhead : (feed (.text .data) (pageHeader a.unit)).1 = .text .data := by cases a.unit <;> decide +kernel
  exact whole_tokens (whole_append (whole_append (whole_append (whole_append (whole_append (whole_append (whole_controls version a wasCached hr)
    (whole_messages (by decide +kernel) (by decide +kernel) herr)) (whole_of (s := pageBetween) (by decide +kernel)))
    (whole_messages (by decide +kernel) (by decide +kernel) hwarn)) (whole_of hhead)) hw) (whole_of (by decide +kernel)))

theorem ids_errors (messages : List Str) : ids (messageTokens pageErrorsOpen pageErrorsLead messages) = if messages = [] then [] else [str% "collapseErrors"] :=
  ids_messages (by decide +kernel) (by decide +kernel)

theorem ids_warnings (messages : List Str) : ids (messageTokens pageWarningsOpen pageWarningsLead messages) = if messages = [] then [] else [str% "collapseWarns"] :=
  ids_messages (by decide +kernel) (by decide +kernel)

theorem ids_header (unit : Dimension) : ids (tokens (pageHeader unit)) = [str% "sort_me"] := by cases unit <;> decide +kernel

/-- **C73.** -/
theorem C73_rows {b : Build} {version : Str} {repos : List Str} {org : Str} {a : CompareArgs} {diff : List ExtrinsicDiff} {wasCached : Bool} {page : Str}
    (hr : BareNames repos) (h1 : Inert org) (h2 : Inert a.repo) (h3 : Inert a.old) (h4 : Inert a.new) (he : ∀ e ∈ diff, InertEntry e)
    (h : comparePage b version repos org a diff wasCached = .ok page) :
    List.Forall₂ (fun p row => ∃ c0 c1 c2 c3 c4 c5 c6 c7 c8, row.2 = [c0, c1, c2, c3, c4, c5, c6, c7, c8] ∧
        RowShows org a p.1 p.2 row.1 c0 c1 c2 c3 c4 c5 c6 c7 c8)
      (diff.filterMap fun e => (numbers e.change).map fun c => (e, c)) (tableRows (tokens page) (str% "sort_me")) := by
  obtain ⟨table, ts, ht, hn, _, hf, e⟩ := page_parts hr h1 h2 h3 h4 he h
  suffices hs : tableRows (tokens page) (str% "sort_me") = table by rw [hs]; exact ht
  have hb : ids (tokens pageBetween) = [] := by decide +kernel
  have hid : str% "sort_me" ∉ ids (controlTokens version repos a wasCached ++ messageTokens pageErrorsOpen pageErrorsLead (diff.filterMap ExtrinsicDiff.error)
        ++ tokens pageBetween ++ messageTokens pageWarningsOpen pageWarningsLead (diff.filterMap ExtrinsicDiff.warning)) := by
    rw [ids_append, ids_append, ids_append, ids_controls, ids_errors, ids_warnings, hb]
    split <;> split <;> decide
  have hh : ∃ w : Str, (afterId (str% "sort_me") (tokens (pageHeader a.unit))).dropWhile (· ≠ .start (str% "tbody") []) =
      Token.start (str% "tbody") [] :: w.map .char ∧ Token.start (str% "tbody") [] ∈ afterId (str% "sort_me") (tokens (pageHeader a.unit)) := by
    cases a.unit <;> exact ⟨str% "\n\t\t", by decide +kernel, by decide +kernel⟩
  obtain ⟨w, hw, hmem⟩ := hh
  have hbot' : (tokens pageBottom).takeWhile (· ≠ .stop (str% "tbody")) = (str% "\n\t").map .char := by decide +kernel
  rw [e, tableRows, List.append_assoc, List.append_assoc, afterId_skip hid, afterId_hit _ (by rw [ids_header]; simp), dropWhile_hit _ hmem, hw,
    takeWhile_pass _ (by simp), takeWhile_pass _ (not_rowToken hn rfl)]
  rw [hbot', List.foldl_append, List.foldl_append, List.foldl_cons]
  have hz : ∀ (s : Str) (d : List (List (Str × Str) × List Cell)), (s.map Token.char).foldl stepTable (betweenRows d) = betweenRows d := by
    intro s d
    induction s with
    | nil => rfl
    | cons c s ih => exact ih
  have h0 : stepTable ⟨[], none, none, false⟩ (.start (str% "tbody") []) = betweenRows [] := rfl
  rw [h0, hz, hf, hz]
  rfl

/-- **C73.** The messages. -/
theorem C73_messages {b : Build} {version : Str} {repos : List Str} {org : Str} {a : CompareArgs} {diff : List ExtrinsicDiff} {wasCached : Bool} {page : Str}
    (hr : BareNames repos) (h1 : Inert org) (h2 : Inert a.repo) (h3 : Inert a.old) (h4 : Inert a.new) (he : ∀ e ∈ diff, InertEntry e)
    (h : comparePage b version repos org a diff wasCached = .ok page) :
    linesOf (tokens page) (str% "collapseErrors") = (diff.filterMap ExtrinsicDiff.error).map strip ∧
    linesOf (tokens page) (str% "collapseWarns") = (diff.filterMap ExtrinsicDiff.warning).map strip := by
  obtain ⟨table, ts, ht, hn, hi, hf, e⟩ := page_parts hr h1 h2 h3 h4 he h
  have hb : ids (tokens pageBetween) = [] := by decide +kernel
  have hbot : ids (tokens pageBottom) = [] := by decide +kernel
  rw [e]
  constructor
  · simp only [List.append_assoc]
    rw [← List.append_assoc]
    refine lines_messages (by decide +kernel) (by decide +kernel) (by rw [ids_controls]; decide) ?_
      ⟨str% "\n\t\t\t", str% "\n\t\t\t\t", [(str% "class", str% "card card-body text-dark bg-light")], by decide, by decide, by decide +kernel⟩
    simp only [ids_append, hb, hbot, ids_warnings, ids_header, List.mem_append, not_or]
    refine ⟨by decide, ?_, by decide, fun hc => absurd (hi _ hc) (by decide), by decide⟩
    split <;> decide
  · rw [List.append_assoc, List.append_assoc]
    refine lines_messages (by decide +kernel) (by decide +kernel) ?_ ?_
      ⟨str% "\n\t\t\t", str% "\n\t\t\t\t", [(str% "class", str% "card card-body text-dark bg-light")], by decide, by decide, by decide +kernel⟩
    · rw [ids_append, ids_append, ids_controls, ids_errors, hb]
      split <;> decide
    · simp only [ids_append, hbot, ids_header, List.mem_append, not_or]
      exact ⟨by decide, fun hc => absurd (hi _ hc) (by decide), by decide⟩

theorem messageTokens_count {opening lead text : Str} {messages : List Str} (h : messages ≠ []) (hl : text.map Token.char <+: tokens lead) :
    (natToStr messages.length ++ text).map Token.char <:+: messageTokens opening lead messages := by
  obtain ⟨r, hr⟩ := hl
  refine ⟨tokens opening, r ++ messages.flatMap (fun m => tokens pageLineSpace ++ m.map .char ++ tokens pageLineEnd) ++ tokens pageListEnd, ?_⟩
  unfold messageTokens
  rw [if_neg h, ← hr, List.map_append]
  simp only [List.append_assoc]

theorem infix_mid {x a : List Token} (p q : List Token) (h : x <:+: a) : x <:+: p ++ a ++ q := by
  obtain ⟨u, v, rfl⟩ := h
  exact ⟨p ++ u, v ++ q, by simp only [List.append_assoc]⟩

/-- **C73.** The numbers of errors and of warnings. -/
theorem C73_counts {b : Build} {version : Str} {repos : List Str} {org : Str} {a : CompareArgs} {diff : List ExtrinsicDiff} {wasCached : Bool} {page : Str}
    (hr : BareNames repos) (h1 : Inert org) (h2 : Inert a.repo) (h3 : Inert a.old) (h4 : Inert a.new) (he : ∀ e ∈ diff, InertEntry e)
    (h : comparePage b version repos org a diff wasCached = .ok page) :
    (diff.filterMap ExtrinsicDiff.error ≠ [] →
      (natToStr (diff.filterMap ExtrinsicDiff.error).length ++ str% " errors generated").map Token.char <:+: tokens page) ∧
    (diff.filterMap ExtrinsicDiff.warning ≠ [] →
      (natToStr (diff.filterMap ExtrinsicDiff.warning).length ++ str% " warnings generated").map Token.char <:+: tokens page) := by
  obtain ⟨table, ts, _, _, _, _, e⟩ := page_parts hr h1 h2 h3 h4 he h
  rw [e]
  constructor
  · intro hne
    have := infix_mid (controlTokens version repos a wasCached) [] (messageTokens_count (opening := pageErrorsOpen) (lead := pageErrorsLead) (text := str% " errors generated")
      hne (by decide +kernel))
    rw [List.append_nil] at this
    exact infix_right _ (infix_right _ (infix_right _ (infix_right _ (infix_right _ this))))
  · intro hne
    have := infix_mid (controlTokens version repos a wasCached ++ messageTokens pageErrorsOpen pageErrorsLead (diff.filterMap ExtrinsicDiff.error) ++ tokens pageBetween) []
      (messageTokens_count (opening := pageWarningsOpen) (lead := pageWarningsLead) (text := str% " warnings generated") hne (by decide +kernel))
    rw [List.append_nil] at this
    exact infix_right _ (infix_right _ (infix_right _ this))

/-- **C73.** In release builds there is always a page, if the numbers of the changed rows were computed from `u128` weights. -/
theorem C73_total (version : Str) (repos : List Str) (org : Str) (a : CompareArgs) (diff : List ExtrinsicDiff) (wasCached : Bool)
    (h : ∀ e ∈ diff, ∀ c, numbers e.change = some c → c.change = .changed → Computed c) :
    ∃ page, comparePage .release version repos org a diff wasCached = .ok page := by
  have hrow : ∀ p ∈ (diff.filterMap fun e => e.term.map fun c => (e, c)), ∃ s, pageRow .release org a p.1 p.2 = .ok s := by
    intro p hp
    obtain ⟨e, hem, hp⟩ := List.mem_filterMap.1 hp
    obtain ⟨c, hc, rfl⟩ := Option.map_eq_some_iff.1 hp
    have hn : numbers e.change = some c := by
      unfold ExtrinsicDiff.term at hc
      unfold numbers
      cases hk : e.change <;> rw [hk] at hc <;> exact hc
    obtain ⟨⟨k, hk⟩, s, hs⟩ := C58_release_total c a.unit (h e hem c hn)
    unfold pageRow
    dsimp only
    rw [hk, Res.bind_ok, hs, Res.bind_ok]
    exact ⟨_, rfl⟩
  have : ∀ l : List (ExtrinsicDiff × TermChange), (∀ p ∈ l, ∃ s, pageRow .release org a p.1 p.2 = .ok s) →
      ∃ rows, l.mapM (fun p => pageRow .release org a p.1 p.2) = .ok rows := by
    intro l hl
    have : ∃ rows, List.Forall₂ (fun p s => pageRow .release org a p.1 p.2 = .ok s) l rows := by
      induction l with
      | nil => exact ⟨[], .nil⟩
      | cons p l ih =>
        obtain ⟨rows, hr⟩ := ih fun q hq => hl q (List.mem_cons_of_mem _ hq)
        obtain ⟨s, hs⟩ := hl p List.mem_cons_self
        exact ⟨s :: rows, .cons hs hr⟩
    obtain ⟨rows, hr⟩ := this
    exact ⟨rows, mapM_ok_iff.2 hr⟩
  obtain ⟨rows, hr⟩ := this _ hrow
  unfold comparePage
  rw [hr, Res.bind_ok]
  exact ⟨_, rfl⟩

end Swc
