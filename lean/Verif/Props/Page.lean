/-
C72–C74: the pages of the web server.
-/
import Verif.Model.Page
import Verif.Spec.Html
import Verif.Props.HtmlOut
import Verif.Props.CliOut
import Verif.Props.Query

namespace Swc

open Spec

/-! ### Tokenizing texts in parts -/

theorem feed_append (st : HState) (a b : Str) :
    feed st (a ++ b) = ((feed (feed st a).1 b).1, (feed st a).2 ++ (feed (feed st a).1 b).2) := by
  induction a generalizing st with
  | nil => simp [feed]
  | cons c a ih => simp only [List.cons_append, feed, ih, List.append_assoc]

theorem feed_append_of {st st1 st2 : HState} {a b : Str} {t1 t2 : List Token} (h1 : feed st a = (st1, t1)) (h2 : feed st1 b = (st2, t2)) :
    feed st (a ++ b) = (st2, t1 ++ t2) := by
  rw [feed_append, h1, h2]

/-- The text ends where it begins, outside of tags and references, and consists of these tokens. -/
def Whole (s : Str) (ts : List Token) : Prop := feed (.text .data) s = (.text .data, ts)

theorem whole_append {a b : Str} {t u : List Token} (h1 : Whole a t) (h2 : Whole b u) : Whole (a ++ b) (t ++ u) := feed_append_of h1 h2

theorem whole_nil : Whole [] [] := rfl

theorem whole_tokens {s : Str} {ts : List Token} (h : Whole s ts) : tokens s = ts := by rw [tokens, h]

theorem tokens_append {a : Str} {t : List Token} (h : Whole a t) (b : Str) : tokens (a ++ b) = t ++ tokens b := by
  rw [tokens, feed_append, h]
  rfl

/-- For constant texts. -/
theorem whole_of {s : Str} (h : (feed (.text .data) s).1 = .text .data) : Whole s (tokens s) := by
  rw [Whole, tokens]
  exact Prod.ext h rfl

theorem escapeChar_data (c : Char) : feed (.text .data) (escapeChar c) = (.text .data, [.char c]) := by
  unfold escapeChar
  by_cases h1 : c = '"'
  · subst h1; rfl
  by_cases h2 : c = '&'
  · subst h2; rfl
  by_cases h3 : c = '\''
  · subst h3; rfl
  by_cases h4 : c = '<'
  · subst h4; rfl
  by_cases h5 : c = '>'
  · subst h5; rfl
  simp only [h1, h2, h3, h4, h5, if_false]
  simp [feed, stepHtml, stepText, stepPlain, h2, h4]

theorem whole_escape (s : Str) : Whole (escapeHtml s) (s.map .char) := by
  induction s with
  | nil => rfl
  | cons c s ih => exact feed_append_of (escapeChar_data c) ih

theorem escapeChar_quoted (t : Tag) (n v : Str) (c : Char) :
    feed (.text (.quoted '"' t n v)) (escapeChar c) = (.text (.quoted '"' t n (v ++ [c])), []) := by
  unfold escapeChar
  by_cases h1 : c = '"'
  · subst h1; rfl
  by_cases h2 : c = '&'
  · subst h2; rfl
  by_cases h3 : c = '\''
  · subst h3; rfl
  by_cases h4 : c = '<'
  · subst h4; rfl
  by_cases h5 : c = '>'
  · subst h5; rfl
  simp only [h1, h2, h3, h4, h5, if_false]
  simp [feed, stepHtml, stepText, stepPlain, h1, h2]

theorem feed_escape_quoted (t : Tag) (n v s : Str) :
    feed (.text (.quoted '"' t n v)) (escapeHtml s) = (.text (.quoted '"' t n (v ++ s)), []) := by
  induction s generalizing v with
  | nil => simp [escapeHtml, feed]
  | cons c s ih =>
    have := feed_append_of (escapeChar_quoted t n v c) (ih (v ++ [c]))
    simpa [escapeHtml] using this

theorem escapeChar_bare (t : Tag) (n v : Str) (c : Char) (h : isBlank c = false) :
    feed (.text (.bare t n v)) (escapeChar c) = (.text (.bare t n (v ++ [c])), []) := by
  unfold escapeChar
  by_cases h1 : c = '"'
  · subst h1; rfl
  by_cases h2 : c = '&'
  · subst h2; rfl
  by_cases h3 : c = '\''
  · subst h3; rfl
  by_cases h4 : c = '<'
  · subst h4; rfl
  by_cases h5 : c = '>'
  · subst h5; rfl
  simp only [h1, h2, h3, h4, h5, if_false]
  simp [feed, stepHtml, stepText, stepPlain, h, h2, h5]

theorem feed_escape_bare (t : Tag) (n v s : Str) (h : ∀ c ∈ s, isBlank c = false) :
    feed (.text (.bare t n v)) (escapeHtml s) = (.text (.bare t n (v ++ s)), []) := by
  induction s generalizing v with
  | nil => simp [escapeHtml, feed]
  | cons c s ih =>
    have := feed_append_of (escapeChar_bare t n v c (h c List.mem_cons_self)) (ih (v ++ [c]) fun d hd => h d (List.mem_cons_of_mem _ hd))
    simpa [escapeHtml] using this

/-- The first character of a value without quotes. -/
theorem escapeChar_value (t : Tag) (n : Str) (c : Char) (h : isBlank c = false) :
    feed (.beforeValue t n) (escapeChar c) = (.text (.bare t n [c]), []) := by
  unfold escapeChar
  by_cases h1 : c = '"'
  · subst h1; rfl
  by_cases h2 : c = '&'
  · subst h2; rfl
  by_cases h3 : c = '\''
  · subst h3; rfl
  by_cases h4 : c = '<'
  · subst h4; rfl
  by_cases h5 : c = '>'
  · subst h5; rfl
  simp only [h1, h2, h3, h4, h5, if_false]
  simp [feed, stepHtml, stepText, stepPlain, h, h1, h2, h3, h5]

theorem feed_escape_value (t : Tag) (n s : Str) (hs : s ≠ []) (h : ∀ c ∈ s, isBlank c = false) :
    feed (.beforeValue t n) (escapeHtml s) = (.text (.bare t n s), []) := by
  cases s with
  | nil => exact absurd rfl hs
  | cons c s =>
    have := feed_append_of (escapeChar_value t n c (h c List.mem_cons_self)) (feed_escape_bare t n [c] s fun d hd => h d (List.mem_cons_of_mem _ hd))
    simpa [escapeHtml] using this

theorem whole_inert {s : Str} (h : Inert s) : Whole s (s.map .char) := by
  induction s with
  | nil => rfl
  | cons c s ih =>
    obtain ⟨h1, h2, _⟩ := h c List.mem_cons_self
    have h0 : feed (.text .data) [c] = (.text .data, [.char c]) := by simp [feed, stepHtml, stepText, stepPlain, h1, h2]
    exact feed_append_of h0 (ih fun d hd => h d (List.mem_cons_of_mem _ hd))

theorem feed_inert_quoted (t : Tag) (n v s : Str) (h : Inert s) : feed (.text (.quoted '"' t n v)) s = (.text (.quoted '"' t n (v ++ s)), []) := by
  induction s generalizing v with
  | nil => simp [feed]
  | cons c s ih =>
    obtain ⟨_, h2, h3⟩ := h c List.mem_cons_self
    have h0 : feed (.text (.quoted '"' t n v)) [c] = (.text (.quoted '"' t n (v ++ [c])), []) := by simp [feed, stepHtml, stepText, stepPlain, h2, h3]
    have := feed_append_of h0 (ih (v ++ [c]) fun d hd => h d (List.mem_cons_of_mem _ hd))
    simpa using this

/-! ### The parts of the pages -/

theorem whole_textInput (name value : Str) (h : Inert name) : Whole (textInput name value)
    [.start (str% "input") [(str% "id", str% "input_" ++ name), (str% "type", str% "text"), (str% "value", value)]] := by
  unfold textInput
  exact feed_append_of (feed_append_of (feed_append_of (feed_append_of (st1 := .text (.quoted '"' ⟨false, str% "input", []⟩ (str% "id") (str% "input_"))) (t1 := [])
    rfl (feed_inert_quoted _ _ _ _ h)) (st2 := .text (.quoted '"' ⟨false, str% "input", [(str% "id", str% "input_" ++ name), (str% "type", str% "text")]⟩ (str% "value") []))
    (t2 := []) rfl) (feed_escape_quoted _ _ _ _)) rfl

/-- Identifiers of elements. -/
def ids (ts : List Token) : List Str :=
  ts.filterMap fun
    | .start _ attrs => attrs.lookup (str% "id")
    | _ => none

theorem ids_append (a b : List Token) : ids (a ++ b) = ids a ++ ids b := List.filterMap_append

theorem ids_chars (s : Str) : ids (s.map .char) = [] := by
  induction s with
  | nil => rfl
  | cons c s ih => exact ih

theorem firstWith_append_some {a b : List Token} {id : Str} {p : Str × List (Str × Str)} (h : firstWith a id = some p) :
    firstWith (a ++ b) id = some p := by
  rw [firstWith, List.findSome?_append]
  rw [firstWith] at h
  rw [h]
  rfl

/-- An element whose identifier occurs once is found. -/
theorem firstWith_mem {ts : List Token} {id name : Str} {attrs : List (Str × Str)} (hm : Token.start name attrs ∈ ts)
    (hid : attrs.lookup (str% "id") = some id) (hc : (ids ts).count id ≤ 1) : firstWith ts id = some (name, attrs) := by
  induction ts with
  | nil => exact absurd hm List.not_mem_nil
  | cons t ts ih =>
    rcases List.mem_cons.1 hm with rfl | hm'
    · simp [firstWith, hid]
    · have hmem : id ∈ ids ts := List.mem_filterMap.2 ⟨_, hm', hid⟩
      have hpos : 1 ≤ (ids ts).count id := List.count_pos_iff.2 hmem
      cases t with
      | char c => exact ih hm' hc
      | stop n => exact ih hm' hc
      | start n as =>
        by_cases he : as.lookup (str% "id") = some id
        · have : ids (Token.start n as :: ts) = id :: ids ts := by simp [ids, he]
          rw [this, List.count_cons_self] at hc
          omega
        · have hc' : (ids ts).count id ≤ 1 := by
            have e : ids (Token.start n as :: ts) = (as.lookup (str% "id")).toList ++ ids ts := by
              cases hl : as.lookup (str% "id") <;> simp [ids, hl]
            rw [e, List.count_append] at hc
            omega
          have := ih hm' hc'
          rw [firstWith] at this ⊢
          rw [List.findSome?_cons]
          simp only [he, if_false]
          exact this

theorem afterId_skip {id : Str} {a b : List Token} (h : id ∉ ids a) : afterId id (a ++ b) = afterId id b := by
  induction a with
  | nil => rfl
  | cons t a ih =>
    cases t with
    | char c => exact ih h
    | stop n => exact ih h
    | start n as =>
      have e : ids (Token.start n as :: a) = (as.lookup (str% "id")).toList ++ ids a := by
        cases hl : as.lookup (str% "id") <;> simp [ids, hl]
      rw [e, List.mem_append] at h
      rw [List.cons_append, afterId, if_neg (fun hc => h (.inl (by rw [hc]; simp))), ih fun hc => h (.inr hc)]

theorem afterId_hit {id : Str} {a : List Token} (b : List Token) (h : id ∈ ids a) : afterId id (a ++ b) = afterId id a ++ b := by
  induction a with
  | nil => exact absurd h (by simp [ids])
  | cons t a ih =>
    cases t with
    | char c => exact ih h
    | stop n => exact ih h
    | start n as =>
      rw [List.cons_append, afterId, afterId]
      by_cases he : as.lookup (str% "id") = some id
      · rw [if_pos he, if_pos he]
      · have e : ids (Token.start n as :: a) = (as.lookup (str% "id")).toList ++ ids a := by
          cases hl : as.lookup (str% "id") <;> simp [ids, hl]
        rw [e, List.mem_append] at h
        rw [if_neg he, if_neg he]
        apply ih
        rcases h with h | h
        · cases hl : as.lookup (str% "id") with
          | none => rw [hl] at h; simp at h
          | some x => rw [hl] at h he; simp at h; exact absurd (by rw [h]) he
        · exact h

theorem whole_header : Whole header (tokens header) := whole_of (by decide +kernel)

/-- The tokens of a page up to the first value. -/
theorem whole_top {o l b : Str} (ho : (feed (.text .data) o).1 = .text .data) (hl : (feed (.text .data) l).1 = .text .data)
    (hb : (feed (.text .data) b).1 = .text .data) : Whole (o ++ header ++ l ++ b) (tokens o ++ tokens header ++ tokens l ++ tokens b) :=
  whole_append (whole_append (whole_append (whole_of ho) whole_header) (whole_of hl)) (whole_of hb)

theorem pageTop_tokens : Whole pageTop (tokens pageHeadOpen ++ tokens header ++ tokens pageHeadLinks ++ tokens pageStart) :=
  whole_top (by decide +kernel) (by decide +kernel) (by decide +kernel)

theorem whole_pageTop : Whole pageTop (tokens pageTop) := by
  rw [whole_tokens pageTop_tokens]
  exact pageTop_tokens
theorem whole_pageVersionEnd : Whole pageVersionEnd (tokens pageVersionEnd) := whole_of (by decide +kernel)
theorem whole_pageRepoOpen : Whole pageRepoOpen (tokens pageRepoOpen) := whole_of (by decide +kernel)
theorem whole_optSpace : Whole optSpace (tokens optSpace) := whole_of (by decide +kernel)
theorem whole_optEnd : Whole optEnd (tokens optEnd) := whole_of (by decide +kernel)
theorem whole_pageRepoClose : Whole pageRepoClose (tokens pageRepoClose) := whole_of (by decide +kernel)
theorem whole_pageAfterOld : Whole pageAfterOld (tokens pageAfterOld) := whole_of (by decide +kernel)
theorem whole_pageRowNext : Whole pageRowNext (tokens pageRowNext) := whole_of (by decide +kernel)
theorem whole_pageCellNext : Whole pageCellNext (tokens pageCellNext) := whole_of (by decide +kernel)
theorem whole_pageThresholdOpen : Whole pageThresholdOpen (tokens pageThresholdOpen) := whole_of (by decide +kernel)
theorem whole_pageAfterThreshold : Whole pageAfterThreshold (tokens pageAfterThreshold) := whole_of (by decide +kernel)
theorem whole_pageUnitOpen : Whole pageUnitOpen (tokens pageUnitOpen) := whole_of (by decide +kernel)
theorem whole_pageUnitClose : Whole pageUnitClose (tokens pageUnitClose) := whole_of (by decide +kernel)
theorem whole_pageMethodOpen : Whole pageMethodOpen (tokens pageMethodOpen) := whole_of (by decide +kernel)
theorem whole_pageHit : Whole pageHit (tokens pageHit) := whole_of (by decide +kernel)
theorem whole_pageControlsEnd : Whole pageControlsEnd (tokens pageControlsEnd) := whole_of (by decide +kernel)

theorem whole_checkbox (name : Str) (checked : Bool) (h : Inert name) : Whole (checkbox name checked)
    [.start (str% "input") ([(str% "id", str% "checkbox_" ++ name), (str% "type", str% "checkbox")] ++ if checked then [(str% "checked", [])] else [])] := by
  unfold checkbox
  have h1 : feed (.text .data) (str% "<input id=\"checkbox_" ++ name ++ str% "\" type=\"checkbox\" ") =
      (.beforeName ⟨false, str% "input", [(str% "id", str% "checkbox_" ++ name), (str% "type", str% "checkbox")]⟩, []) :=
    feed_append_of (feed_append_of (st1 := .text (.quoted '"' ⟨false, str% "input", []⟩ (str% "id") (str% "checkbox_"))) (t1 := []) rfl
      (feed_inert_quoted _ _ _ _ h)) rfl
  cases checked with
  | true => exact feed_append_of (feed_append_of h1 rfl) rfl
  | false => exact feed_append_of (feed_append_of h1 rfl) rfl

theorem whole_thresholdInput (n : ℕ) : Whole (thresholdInput n)
    [.start (str% "input") [(str% "id", str% "input_threshold"), (str% "type", str% "number"), (str% "class", str% "form-control"), (str% "value", natToStr n)]] := by
  unfold thresholdInput
  exact feed_append_of (feed_append_of (st1 := .text (.quoted '"' ⟨false, str% "input", [(str% "id", str% "input_threshold"), (str% "type", str% "number"),
    (str% "class", str% "form-control")]⟩ (str% "value") [])) (t1 := []) (by decide +kernel) (feed_escape_quoted _ _ _ _)) rfl

/-- The attributes of an option. -/
def optionAttrs (selected : Bool) (value : Str) : List (Str × Str) := (str% "value", value) :: if selected then [(str% "selected", [])] else []

/-- The tokens of an option. -/
def optionTokens (selected : Bool) (value : Str) : List Token :=
  tokens optSpace ++ [.start (str% "option") (optionAttrs selected value)] ++ value.map .char ++ tokens optEnd

theorem whole_namedOption (selected : Bool) (value : Str) : Whole (namedOption selected value) (optionTokens selected value) := by
  unfold namedOption optionTokens
  refine whole_append (whole_append (whole_append whole_optSpace ?_) (whole_escape _)) whole_optEnd
  have h1 : feed (.text .data) (str% "<option value=\"" ++ escapeHtml value ++ str% "\" ") = (.beforeName ⟨false, str% "option", [(str% "value", value)]⟩, []) :=
    feed_append_of (feed_append_of (st1 := .text (.quoted '"' ⟨false, str% "option", []⟩ (str% "value") [])) (t1 := []) rfl (feed_escape_quoted _ _ _ _)) rfl
  cases selected with
  | true => exact feed_append_of (feed_append_of h1 rfl) rfl
  | false => exact feed_append_of (feed_append_of h1 rfl) rfl

theorem whole_repoOption (current value : Str) (h0 : value ≠ []) (h : ∀ c ∈ value, isBlank c = false) :
    Whole (repoOption current value) (optionTokens (current = value) value) := by
  unfold repoOption optionTokens
  refine whole_append (whole_append (whole_append whole_optSpace ?_) (whole_escape _)) whole_optEnd
  have h1 : feed (.text .data) (str% "<option value=" ++ escapeHtml value ++ str% " ") = (.beforeName ⟨false, str% "option", [(str% "value", value)]⟩, []) :=
    feed_append_of (feed_append_of (st1 := .beforeValue ⟨false, str% "option", []⟩ (str% "value")) (t1 := []) rfl (feed_escape_value _ _ _ h0 h)) rfl
  by_cases hs : current = value
  · simp only [if_pos hs, decide_eq_true hs]
    exact feed_append_of (feed_append_of h1 rfl) rfl
  · simp only [if_neg hs, decide_eq_false hs]
    exact feed_append_of (feed_append_of h1 rfl) rfl

theorem whole_flatMap {α : Type} {l : List α} {f : α → Str} {g : α → List Token} (h : ∀ x ∈ l, Whole (f x) (g x)) : Whole (l.flatMap f) (l.flatMap g) := by
  induction l with
  | nil => rfl
  | cons x l ih => exact whole_append (h x List.mem_cons_self) (ih fun y hy => h y (List.mem_cons_of_mem _ hy))

/-- The start tag of a text input. -/
def inputToken (name value : Str) : Token :=
  .start (str% "input") [(str% "id", str% "input_" ++ name), (str% "type", str% "text"), (str% "value", value)]

/-- The start tag of a check box. -/
def checkboxToken (name : Str) (checked : Bool) : Token :=
  .start (str% "input") ([(str% "id", str% "checkbox_" ++ name), (str% "type", str% "checkbox")] ++ if checked then [(str% "checked", [])] else [])

/-- The start tag of the input for the threshold. -/
def thresholdToken (n : ℕ) : Token :=
  .start (str% "input") [(str% "id", str% "input_threshold"), (str% "type", str% "number"), (str% "class", str% "form-control"), (str% "value", natToStr n)]

/-- The tokens of the controls. -/
def controlTokens (version : Str) (repos : List Str) (a : CompareArgs) (wasCached : Bool) : List Token :=
  tokens pageTop ++ version.map .char ++ tokens pageVersionEnd ++ tokens (readmeLink (str% "Repository")) ++ tokens pageRepoOpen
    ++ repos.flatMap (fun r => optionTokens (a.repo = r) r) ++ tokens pageRepoClose
    ++ [inputToken (str% "old") a.old] ++ tokens pageAfterOld ++ [inputToken (str% "new") a.new] ++ tokens pageRowNext
    ++ tokens (readmeLink (str% "Path Pattern")) ++ tokens pageCellNext ++ [inputToken (str% "path_pattern") a.pathPattern] ++ tokens pageRowNext
    ++ tokens (readmeLink (str% "Pallet")) ++ tokens pageCellNext ++ [inputToken (str% "pallet") (a.pallet.getD (str% ".*"))] ++ tokens pageRowNext
    ++ tokens (readmeLink (str% "Extrinsic")) ++ tokens pageCellNext ++ [inputToken (str% "extrinsic") (a.extrinsic.getD (str% ".*"))] ++ tokens pageRowNext
    ++ tokens (readmeLink (str% "Rel Threshold")) ++ tokens pageThresholdOpen ++ [thresholdToken a.threshold] ++ tokens pageAfterThreshold
    ++ tokens (readmeLink (str% "Dimension")) ++ tokens pageUnitOpen ++ Dimension.reflect.flatMap (fun p => optionTokens (a.unit = p.1) p.2) ++ tokens pageUnitClose
    ++ tokens (readmeLink (str% "Evaluation Method")) ++ tokens pageMethodOpen
    ++ CompareMethod.reflect.flatMap (fun p => optionTokens (a.method = p.1) p.2) ++ tokens pageUnitClose
    ++ tokens (readmeLink (str% "Ignore Errors")) ++ tokens pageCellNext ++ [checkboxToken (str% "ignore_errors") a.ignoreErrors] ++ tokens pageRowNext
    ++ tokens (readmeLink (str% "Git Pull")) ++ tokens pageCellNext ++ [checkboxToken (str% "git_pull") (a.gitPull.getD true)] ++ tokens pageRowNext
    ++ tokens (readmeLink (str% "Cache")) ++ tokens pageHit ++ (if wasCached then str% "Yes" else str% "No").map .char ++ tokens pageControlsEnd

instance (s : Str) : Decidable (Inert s) := inferInstanceAs (Decidable (∀ c ∈ s, c ≠ '<' ∧ c ≠ '&' ∧ c ≠ '"'))

theorem whole_link (name : Str) (h : (feed (.text .data) (readmeLink name)).1 = .text .data) : Whole (readmeLink name) (tokens (readmeLink name)) := whole_of h

theorem whole_controls (version : Str) {repos : List Str} (a : CompareArgs) (wasCached : Bool) (hr : BareNames repos) :
    Whole (pageControls version repos a wasCached) (controlTokens version repos a wasCached) := by
  have h := (whole_append (whole_append (whole_append (whole_append (whole_append (whole_append (whole_append (whole_append (whole_append (whole_append (whole_append (whole_append (whole_append (whole_append (whole_append (whole_append (whole_append (whole_append (whole_append (whole_append (whole_append (whole_append (whole_append (whole_append (whole_append (whole_append (whole_append (whole_append (whole_append (whole_append (whole_append (whole_append (whole_append (whole_append (whole_append (whole_append (whole_append (whole_append (whole_append (whole_append (whole_append (whole_append (whole_append (whole_append (whole_append (whole_append whole_pageTop (whole_escape version))
      whole_pageVersionEnd) (whole_link (str% "Repository") (by decide +kernel))) whole_pageRepoOpen) (whole_flatMap (f := repoOption a.repo) fun r h => whole_repoOption _ _ (hr r h).1 (hr r h).2))
      whole_pageRepoClose) (whole_textInput (str% "old") a.old (by decide +kernel))) whole_pageAfterOld) (whole_textInput (str% "new") a.new (by decide +kernel)))
      whole_pageRowNext) (whole_link (str% "Path Pattern") (by decide +kernel))) whole_pageCellNext) (whole_textInput (str% "path_pattern") a.pathPattern (by decide +kernel)))
      whole_pageRowNext) (whole_link (str% "Pallet") (by decide +kernel))) whole_pageCellNext) (whole_textInput (str% "pallet") (a.pallet.getD (str% ".*")) (by decide +kernel)))
      whole_pageRowNext) (whole_link (str% "Extrinsic") (by decide +kernel))) whole_pageCellNext) (whole_textInput (str% "extrinsic") (a.extrinsic.getD (str% ".*")) (by decide +kernel)))
      whole_pageRowNext) (whole_link (str% "Rel Threshold") (by decide +kernel))) whole_pageThresholdOpen) (whole_thresholdInput a.threshold))
      whole_pageAfterThreshold) (whole_link (str% "Dimension") (by decide +kernel))) whole_pageUnitOpen) (whole_flatMap (l := Dimension.reflect) (f := fun p => namedOption (a.unit = p.1) p.2) fun _ _ => whole_namedOption _ _))
      whole_pageUnitClose) (whole_link (str% "Evaluation Method") (by decide +kernel))) whole_pageMethodOpen) (whole_flatMap (l := CompareMethod.reflect) (f := fun p => namedOption (a.method = p.1) p.2) fun _ _ => whole_namedOption _ _))
      whole_pageUnitClose) (whole_link (str% "Ignore Errors") (by decide +kernel))) whole_pageCellNext) (whole_checkbox (str% "ignore_errors") a.ignoreErrors (by decide +kernel)))
      whole_pageRowNext) (whole_link (str% "Git Pull") (by decide +kernel))) whole_pageCellNext) (whole_checkbox (str% "git_pull") (a.gitPull.getD true) (by decide +kernel)))
      whole_pageRowNext) (whole_link (str% "Cache") (by decide +kernel))) whole_pageHit) (whole_escape (if wasCached then str% "Yes" else str% "No"))) whole_pageControlsEnd)
  exact h

/-! ### Constant parts of the controls -/

theorem ids_option (selected : Bool) (value : Str) : ids (optionTokens selected value) = [] := by
  have h1 : ids (tokens optSpace) = [] := by decide +kernel
  have h2 : ids (tokens optEnd) = [] := by decide +kernel
  have h3 : ids [Token.start (str% "option") (optionAttrs selected value)] = [] := by cases selected <;> rfl
  rw [optionTokens, ids_append, ids_append, ids_append, h1, h2, h3, ids_chars]
  rfl

theorem ids_flatMap {α : Type} {l : List α} {g : α → List Token} (h : ∀ x, ids (g x) = []) : ids (l.flatMap g) = [] := by
  induction l with
  | nil => rfl
  | cons x l ih => rw [List.flatMap_cons, ids_append, h, ih]; rfl

theorem ids_input (name value : Str) : ids [inputToken name value] = [str% "input_" ++ name] := rfl

theorem ids_checkbox (name : Str) (checked : Bool) : ids [checkboxToken name checked] = [str% "checkbox_" ++ name] := rfl

theorem ids_threshold (n : ℕ) : ids [thresholdToken n] = [str% "input_threshold"] := rfl

theorem ids_pageTop : ids (tokens pageTop) = [str% "lightSwitch", str% "config_table"] := by
  rw [whole_tokens pageTop_tokens, ids_append, ids_append, ids_append]
  decide +kernel
theorem ids_pageVersionEnd : ids (tokens pageVersionEnd) = [] := by decide +kernel
theorem ids_pageRepoOpen : ids (tokens pageRepoOpen) = [str% "select_repo"] := by decide +kernel
theorem ids_pageRepoClose : ids (tokens pageRepoClose) = [] := by decide +kernel
theorem ids_pageAfterOld : ids (tokens pageAfterOld) = [] := by decide +kernel
theorem ids_pageRowNext : ids (tokens pageRowNext) = [] := by decide +kernel
theorem ids_pageCellNext : ids (tokens pageCellNext) = [] := by decide +kernel
theorem ids_pageThresholdOpen : ids (tokens pageThresholdOpen) = [] := by decide +kernel
theorem ids_pageAfterThreshold : ids (tokens pageAfterThreshold) = [] := by decide +kernel
theorem ids_pageUnitOpen : ids (tokens pageUnitOpen) = [str% "select_unit"] := by decide +kernel
theorem ids_pageUnitClose : ids (tokens pageUnitClose) = [] := by decide +kernel
theorem ids_pageMethodOpen : ids (tokens pageMethodOpen) = [str% "select_method"] := by decide +kernel
theorem ids_pageHit : ids (tokens pageHit) = [] := by decide +kernel
theorem ids_pageControlsEnd : ids (tokens pageControlsEnd) = [] := by decide +kernel

theorem ids_links : ∀ n ∈ [str% "Repository", str% "Path Pattern", str% "Pallet", str% "Extrinsic", str% "Rel Threshold", str% "Dimension", str% "Evaluation Method", str% "Ignore Errors", str% "Git Pull", str% "Cache"], ids (tokens (readmeLink n)) = [] := by decide +kernel

/-- Identifiers of the controls. -/
def controlIds : List Str :=
  [str% "lightSwitch", str% "config_table", str% "select_repo", str% "input_old", str% "input_new", str% "input_path_pattern", str% "input_pallet",
    str% "input_extrinsic", str% "input_threshold", str% "select_unit", str% "select_method", str% "checkbox_ignore_errors", str% "checkbox_git_pull"]

theorem ids_controls (version : Str) (repos : List Str) (a : CompareArgs) (wasCached : Bool) :
    ids (controlTokens version repos a wasCached) = controlIds := by
  unfold controlTokens
  simp only [ids_append, ids_chars, ids_input, ids_checkbox, ids_threshold, ids_flatMap (fun _ => ids_option _ _), ids_pageTop, ids_pageVersionEnd, ids_pageRepoOpen, ids_pageRepoClose, ids_pageAfterOld, ids_pageRowNext, ids_pageCellNext, ids_pageThresholdOpen, ids_pageAfterThreshold, ids_pageUnitOpen, ids_pageUnitClose, ids_pageMethodOpen, ids_pageHit, ids_pageControlsEnd]
  rw [ids_links (str% "Repository") (by decide)]
  rw [ids_links (str% "Path Pattern") (by decide)]
  rw [ids_links (str% "Pallet") (by decide)]
  rw [ids_links (str% "Extrinsic") (by decide)]
  rw [ids_links (str% "Rel Threshold") (by decide)]
  rw [ids_links (str% "Dimension") (by decide)]
  rw [ids_links (str% "Evaluation Method") (by decide)]
  rw [ids_links (str% "Ignore Errors") (by decide)]
  rw [ids_links (str% "Git Pull") (by decide)]
  rw [ids_links (str% "Cache") (by decide)]
  rfl

theorem controlIds_once : ∀ i ∈ controlIds, controlIds.count i ≤ 1 := by decide +kernel

theorem control_first {version : Str} {repos : List Str} {a : CompareArgs} {wasCached : Bool} {name id : Str} {attrs : List (Str × Str)} (rest : List Token)
    (hm : Token.start name attrs ∈ controlTokens version repos a wasCached) (hid : attrs.lookup (str% "id") = some id) (hi : id ∈ controlIds) :
    firstWith (controlTokens version repos a wasCached ++ rest) id = some (name, attrs) :=
  firstWith_append_some (firstWith_mem hm hid (by rw [ids_controls]; exact controlIds_once id hi))

theorem infix_last (p k o c : List Token) : k ++ o ++ c <:+: p ++ k ++ o ++ c := ⟨p, [], by simp only [List.append_assoc, List.append_nil]⟩

theorem infix_right {x a : List Token} (b : List Token) (h : x <:+: a) : x <:+: a ++ b := by
  obtain ⟨p, q, rfl⟩ := h
  exact ⟨p, q ++ b, by simp only [List.append_assoc]⟩

/-- The choices of a list whose identifier occurs once. -/
theorem choices_once {ts k o c rest : List Token} {id : Str} (h : k ++ o ++ c <:+: ts) (hc : (ids ts).count id ≤ 1) (hk : id ∈ ids k)
    (ho : ∀ t ∈ o, t ≠ .stop (str% "select")) (hk' : choices k id = []) (hk'' : Token.stop (str% "select") ∉ afterId id k)
    (hcl : (c.takeWhile (· ≠ .stop (str% "select"))).filterMap optionOf = []) (hcs : Token.stop (str% "select") ∈ c) :
    choices (ts ++ rest) id = o.filterMap optionOf := by
  obtain ⟨p, q, rfl⟩ := h
  have hp : id ∉ ids p := by
    intro hm
    simp only [ids_append, List.count_append] at hc
    have h1 := List.count_pos_iff.2 hm
    have h2 := List.count_pos_iff.2 hk
    omega
  have e : p ++ (k ++ o ++ c) ++ q ++ rest = p ++ (k ++ (o ++ (c ++ (q ++ rest)))) := by simp only [List.append_assoc]
  rw [choices, e, afterId_skip hp, afterId_hit _ hk]
  rw [List.takeWhile_append_of_pos (fun t ht => by
    simp only [decide_eq_true_eq]
    rintro rfl
    exact hk'' ht)]
  rw [List.takeWhile_append_of_pos (fun t ht => by
    simp only [decide_eq_true_eq]
    exact ho t ht)]
  have e2 : ∀ (c r : List Token), Token.stop (str% "select") ∈ c →
      (c ++ r).takeWhile (· ≠ .stop (str% "select")) = c.takeWhile (· ≠ .stop (str% "select")) := by
    intro c r hc
    induction c with
    | nil => exact absurd hc List.not_mem_nil
    | cons t c ih =>
      rw [List.cons_append, List.takeWhile_cons, List.takeWhile_cons]
      by_cases ht : t = .stop (str% "select")
      · rw [ht]; rfl
      · rw [ih ((List.mem_cons.1 hc).resolve_left (Ne.symm ht))]
  rw [e2 c _ hcs, List.filterMap_append, List.filterMap_append, hcl, List.append_nil]
  have e3 : (afterId id k).takeWhile (· ≠ .stop (str% "select")) = afterId id k := by
    rw [List.takeWhile_eq_self_iff]
    intro t ht
    simp only [decide_eq_true_eq]
    rintro rfl
    exact hk'' ht
  rw [choices, e3] at hk'
  rw [hk']
  rfl

theorem options_choices {α : Type} (l : List α) (sel : α → Bool) (val : α → Str) :
    (l.flatMap fun x => optionTokens (sel x) (val x)).filterMap optionOf = l.map fun x => (val x, sel x) := by
  have hchars : ∀ s : Str, (s.map Token.char).filterMap optionOf = [] := by
    intro s
    induction s with
    | nil => rfl
    | cons c s ih => exact ih
  have hsp : (tokens optSpace).filterMap optionOf = [] := by decide +kernel
  have hen : (tokens optEnd).filterMap optionOf = [] := by decide +kernel
  induction l with
  | nil => rfl
  | cons x l ih =>
    rw [List.flatMap_cons, List.filterMap_append, ih, List.map_cons, optionTokens, List.filterMap_append, List.filterMap_append, List.filterMap_append,
      hsp, hchars, hen]
    cases h : sel x <;> rfl

theorem options_open {α : Type} (l : List α) (sel : α → Bool) (val : α → Str) :
    ∀ t ∈ l.flatMap fun x => optionTokens (sel x) (val x), t ≠ .stop (str% "select") := by
  intro t ht
  obtain ⟨x, _, hx⟩ := List.mem_flatMap.1 ht
  rw [optionTokens, List.mem_append, List.mem_append, List.mem_append] at hx
  have h1 : Token.stop (str% "select") ∉ tokens optSpace := by decide +kernel
  have h2 : Token.stop (str% "select") ∉ tokens optEnd := by decide +kernel
  rintro rfl
  rcases hx with ((hx | hx) | hx) | hx
  · exact h1 hx
  · simp at hx
  · simp at hx
  · exact h2 hx

theorem mem_last (p : List Token) (t : Token) : t ∈ p ++ [t] := List.mem_append_right _ List.mem_cons_self

theorem mem_left {p : List Token} {t : Token} (q : List Token) (h : t ∈ p) : t ∈ p ++ q := List.mem_append_left _ h

/-- Finds a token in `controlTokens`. -/
macro "mem_tokens" : tactic =>
  `(tactic| (unfold controlTokens; repeat first | with_reducible exact mem_last _ _ | with_reducible refine mem_left _ ?_))

theorem page_controls {b : Build} {version : Str} {repos : List Str} {org : Str} {a : CompareArgs} {diff : List ExtrinsicDiff} {wasCached : Bool} {page : Str}
    (hr : BareNames repos) (h : comparePage b version repos org a diff wasCached = .ok page) :
    ∃ rest, tokens page = controlTokens version repos a wasCached ++ rest := by
  unfold comparePage at h
  obtain ⟨rows, _, h⟩ := bind_eq_ok h
  injection h with h
  rw [← h]
  simp only [List.append_assoc]
  exact ⟨_, tokens_append (whole_controls version a wasCached hr) _⟩

theorem units_choices (version : Str) (repos : List Str) (a : CompareArgs) (wasCached : Bool) (rest : List Token) :
    choices (controlTokens version repos a wasCached ++ rest) (str% "select_unit") =
      Dimension.reflect.map fun p => (p.2, decide (a.unit = p.1)) := by
  rw [← options_choices]
  refine choices_once (k := tokens pageUnitOpen) (c := tokens pageUnitClose) ?_ (by rw [ids_controls]; decide +kernel) (by rw [ids_pageUnitOpen]; decide)
    (options_open _ _ _) (by decide +kernel) (by decide +kernel) (by decide +kernel) (by decide +kernel)
  unfold controlTokens
  repeat first | with_reducible exact infix_last _ _ _ _ | with_reducible refine infix_right _ ?_

theorem methods_choices (version : Str) (repos : List Str) (a : CompareArgs) (wasCached : Bool) (rest : List Token) :
    choices (controlTokens version repos a wasCached ++ rest) (str% "select_method") =
      CompareMethod.reflect.map fun p => (p.2, decide (a.method = p.1)) := by
  rw [← options_choices]
  refine choices_once (k := tokens pageMethodOpen) (c := tokens pageUnitClose) ?_ (by rw [ids_controls]; decide +kernel) (by rw [ids_pageMethodOpen]; decide)
    (options_open _ _ _) (by decide +kernel) (by decide +kernel) (by decide +kernel) (by decide +kernel)
  unfold controlTokens
  repeat first | with_reducible exact infix_last _ _ _ _ | with_reducible refine infix_right _ ?_

/-- **C72.** -/
theorem C72_controls {b : Build} {version : Str} {repos : List Str} {org : Str} {a : CompareArgs} {diff : List ExtrinsicDiff} {wasCached : Bool} {page : Str}
    (hr : BareNames repos) (h : comparePage b version repos org a diff wasCached = .ok page) : Shows (tokens page) a := by
  obtain ⟨rest, e⟩ := page_controls hr h
  rw [e]
  have hin : ∀ n v, inputToken n v ∈ controlTokens version repos a wasCached → str% "input_" ++ n ∈ controlIds →
      valueOf (controlTokens version repos a wasCached ++ rest) (str% "input_" ++ n) = some v := by
    intro n v hm hi
    rw [valueOf, control_first rest hm rfl hi]
    rfl
  have hbox : ∀ n v, checkboxToken n v ∈ controlTokens version repos a wasCached → str% "checkbox_" ++ n ∈ controlIds →
      checkedOf (controlTokens version repos a wasCached ++ rest) (str% "checkbox_" ++ n) = some v := by
    intro n v hm hi
    rw [checkedOf, control_first rest hm rfl hi]
    cases v <;> rfl
  have hunit := units_choices version repos a wasCached rest
  have hmethod := methods_choices version repos a wasCached rest
  refine ⟨?_, ?_, ?_, ?_, ?_, ⟨natToStr a.threshold, ?_, readNat_natToStr _⟩, ?_, ?_, ?_, ?_⟩
  · exact hin (str% "old") _ (by mem_tokens) (by decide)
  · exact hin (str% "new") _ (by mem_tokens) (by decide)
  · exact hin (str% "path_pattern") _ (by mem_tokens) (by decide)
  · exact hin (str% "pallet") _ (by mem_tokens) (by decide)
  · exact hin (str% "extrinsic") _ (by mem_tokens) (by decide)
  · have hm : thresholdToken a.threshold ∈ controlTokens version repos a wasCached := by mem_tokens
    rw [valueOf, control_first rest hm rfl (by decide)]
    rfl
  · rw [chosen, hunit]
    cases a.unit
    · exact ⟨str% "time", by decide +kernel, .inl rfl⟩
    · exact ⟨str% "proof", by decide +kernel, rfl⟩
  · rw [chosen, hmethod]
    cases a.method
    · exact ⟨str% "base", by decide +kernel, rfl⟩
    · exact ⟨str% "exact-worst", by decide +kernel, rfl⟩
    · exact ⟨str% "guess-worst", by decide +kernel, rfl⟩
    · exact ⟨str% "exact-asymptotic", by decide +kernel, rfl⟩
    · exact ⟨str% "asymptotic", by decide +kernel, rfl⟩
  · exact hbox (str% "ignore_errors") _ (by mem_tokens) (by decide)
  · exact hbox (str% "git_pull") _ (by mem_tokens) (by decide)

/-- **C72.** The list of repositories offers every repository and shows the one of the request. -/
theorem C72_repo {b : Build} {version : Str} {repos : List Str} {org : Str} {a : CompareArgs} {diff : List ExtrinsicDiff} {wasCached : Bool} {page : Str}
    (hr : BareNames repos) (h : comparePage b version repos org a diff wasCached = .ok page) :
    (choices (tokens page) (str% "select_repo")).map Prod.fst = repos ∧
    (a.repo ∈ repos → chosen (tokens page) (str% "select_repo") = some a.repo) := by
  obtain ⟨rest, e⟩ := page_controls hr h
  have hrepo : choices (tokens page) (str% "select_repo") = repos.map fun r => (r, decide (a.repo = r)) := by
    rw [e, ← options_choices]
    refine choices_once (k := tokens pageRepoOpen) (c := tokens pageRepoClose) ?_ (by rw [ids_controls]; decide +kernel) (by rw [ids_pageRepoOpen]; decide)
      (options_open _ _ _) (by decide +kernel) (by decide +kernel) (by decide +kernel) (by decide +kernel)
    unfold controlTokens
    repeat first | with_reducible exact infix_last _ _ _ _ | with_reducible refine infix_right _ ?_
  constructor
  · rw [hrepo, List.map_map]
    exact List.map_id _
  · intro hm
    have hf : ∀ l : List Str, (l.map fun r => (r, decide (a.repo = r))).filter (·.2) = List.replicate (l.count a.repo) (a.repo, true) := by
      intro l
      induction l with
      | nil => rfl
      | cons r l ih =>
        rw [List.map_cons, List.filter_cons, ih]
        by_cases hr : a.repo = r
        · subst hr
          simp [List.replicate_succ]
        · simp [hr, List.count_cons_of_ne (Ne.symm hr)]
    rw [chosen, hrepo, hf]
    obtain ⟨n, hn⟩ := Nat.exists_eq_add_of_lt (List.count_pos_iff.2 hm)
    rw [hn, Nat.zero_add, List.getLast?_replicate]
    simp


end Swc
