/-
C96: the scripts find on the pages what they look for.
-/
import Verif.Model.Scripts
import Verif.Spec.Scripts
import Verif.Props.PageOther
import Verif.Model.StartPage

namespace Swc

open Spec

/-! ### What matters of a page -/

/-- Elements that have an identifier or a source, and `div` elements: name, identifier, source, class. -/
def mark : Token → Option (Str × Option Str × Option Str × Option Str)
  | .start name attrs =>
    if (attrs.lookup (str% "id")).isSome || (attrs.lookup (str% "src")).isSome || name = str% "div" then
      some (name, attrs.lookup (str% "id"), attrs.lookup (str% "src"), attrs.lookup (str% "class"))
    else none
  | _ => none

def marks (ts : List Token) : List (Str × Option Str × Option Str × Option Str) := ts.filterMap mark

def markId (id : Str) (m : Str × Option Str × Option Str × Option Str) : Option Str := if m.2.1 = some id then some m.1 else none
def markScript (m : Str × Option Str × Option Str × Option Str) : Option Str := if m.1 = str% "script" then m.2.2.1 else none
def markDiv (m : Str × Option Str × Option Str × Option Str) : Option Str := if m.1 = str% "div" then m.2.2.2 else none

theorem namedBy_marks (ts : List Token) (id : Str) : namedBy ts id = (marks ts).filterMap (markId id) := by
  rw [marks, List.filterMap_filterMap, namedBy]
  apply List.filterMap_congr
  intro t _
  cases t with
  | char c => rfl
  | stop n => rfl
  | start name attrs =>
    dsimp only [mark]
    cases hi : attrs.lookup (str% "id") with
    | none =>
      rw [if_neg (by simp)]
      split <;> simp [markId]
    | some i => simp [markId]

theorem scriptsOf_marks (ts : List Token) : scriptsOf ts = (marks ts).filterMap markScript := by
  rw [marks, List.filterMap_filterMap, scriptsOf]
  apply List.filterMap_congr
  intro t _
  cases t with
  | char c => rfl
  | stop n => rfl
  | start name attrs =>
    dsimp only [mark]
    cases hi : attrs.lookup (str% "src") with
    | none =>
      split
      · split <;> simp [markScript]
      · split <;> simp [markScript]
    | some i => simp [markScript]

theorem divClasses_marks (ts : List Token) : divClasses ts = (marks ts).filterMap markDiv := by
  rw [marks, List.filterMap_filterMap, divClasses]
  apply List.filterMap_congr
  intro t _
  cases t with
  | char c => rfl
  | stop n => rfl
  | start name attrs =>
    dsimp only [mark]
    by_cases hn : name = str% "div"
    · simp [markDiv, hn]
    · rw [if_neg hn]
      split
      · simp [markDiv, hn]
      · rfl

theorem marks_append (a b : List Token) : marks (a ++ b) = marks a ++ marks b := List.filterMap_append

theorem marks_chars (s : Str) : marks (s.map .char) = [] := by
  induction s with
  | nil => rfl
  | cons c s ih => exact ih

theorem marks_flatMap {α : Type} {l : List α} {g : α → List Token} (h : ∀ x ∈ l, marks (g x) = []) : marks (l.flatMap g) = [] := by
  induction l with
  | nil => rfl
  | cons x l ih => rw [List.flatMap_cons, marks_append, h x List.mem_cons_self, ih fun y hy => h y (List.mem_cons_of_mem _ hy)]; rfl

/-! ### The result page -/

/-- The mark of a script. -/
def scriptMark (src : Str) : Str × Option Str × Option Str × Option Str := (str% "script", none, some src, none)

/-- The mark of a `div`. -/
def divMark (cls : Str) : Str × Option Str × Option Str × Option Str := (str% "div", none, none, some cls)

/-- The scripts that all pages load. -/
def headerScripts : List Str :=
  [str% "https://cdnjs.cloudflare.com/ajax/libs/jquery/3.6.0/jquery.min.js",
    str% "https://cdnjs.cloudflare.com/ajax/libs/twitter-bootstrap/5.1.3/js/bootstrap.bundle.min.js", str% "/static/darkmode.js"]

theorem marks_header : marks (tokens header) = headerScripts.map scriptMark := by decide +kernel

/-- The scripts of the widget for tables. -/
def tableScripts : List Str :=
  [str% "https://cdnjs.cloudflare.com/ajax/libs/pdfmake/0.1.36/pdfmake.min.js", str% "https://cdnjs.cloudflare.com/ajax/libs/pdfmake/0.1.36/vfs_fonts.js",
    str% "https://cdn.datatables.net/v/bs5/jq-3.6.0/jszip-2.5.0/dt-1.12.1/b-2.2.3/b-colvis-2.2.3/b-html5-2.2.3/b-print-2.2.3/r-2.3.0/sl-1.4.0/datatables.min.js"]

/-- The marks of the head of the result page. -/
def headMarks : List (Str × Option Str × Option Str × Option Str) := (headerScripts ++ tableScripts ++ [str% "/static/table.js"]).map scriptMark

def resultMarks : List (Str × Option Str × Option Str × Option Str) :=
  let input (id : Str) := (str% "input", some id, none, none)
  headMarks ++ [(str% "div", none, none, some (str% "form-check form-switch")), (str% "input", some (str% "lightSwitch"), none, some (str% "form-check-input")),
    (str% "table", some (str% "config_table"), none, none), (str% "select", some (str% "select_repo"), none, none), input (str% "input_old"), input (str% "input_new"),
    input (str% "input_path_pattern"), input (str% "input_pallet"), input (str% "input_extrinsic"), (str% "div", none, none, some (str% "input-group")),
    (str% "input", some (str% "input_threshold"), none, some (str% "form-control")), (str% "div", none, none, some (str% "input-group-append")),
    (str% "select", some (str% "select_unit"), none, none), (str% "select", some (str% "select_method"), none, none), input (str% "checkbox_ignore_errors"),
    input (str% "checkbox_git_pull")]

theorem marks_option (selected : Bool) (value : Str) : marks (optionTokens selected value) = [] := by
  have h1 : marks (tokens optSpace) = [] := by decide +kernel
  have h2 : marks (tokens optEnd) = [] := by decide +kernel
  have h3 : marks [Token.start (str% "option") (optionAttrs selected value)] = [] := by cases selected <;> rfl
  rw [optionTokens, marks_append, marks_append, marks_append, h1, h2, h3, marks_chars]
  rfl

theorem marks_pageTop : marks (tokens pageTop) = headMarks ++ marks (tokens pageStart) := by
  have e1 : marks (tokens pageHeadOpen) = [] := by decide +kernel
  have e2 : marks (tokens pageHeadLinks) = (tableScripts ++ [str% "/static/table.js"]).map scriptMark := by decide +kernel
  rw [whole_tokens pageTop_tokens, marks_append, marks_append, marks_append, marks_header, e1, e2, headMarks, List.nil_append, List.append_assoc headerScripts,
    List.map_append (l₁ := headerScripts)]

theorem marks_links : ∀ n ∈ [str% "Repository", str% "Path Pattern", str% "Pallet", str% "Extrinsic", str% "Rel Threshold", str% "Dimension",
    str% "Evaluation Method", str% "Ignore Errors", str% "Git Pull", str% "Cache"], marks (tokens (readmeLink n)) = [] := by decide +kernel

theorem marks_input (name value : Str) : marks [inputToken name value] = [(str% "input", some (str% "input_" ++ name), none, none)] := rfl

theorem marks_checkbox (name : Str) (checked : Bool) : marks [checkboxToken name checked] = [(str% "input", some (str% "checkbox_" ++ name), none, none)] := by
  cases checked <;> rfl

theorem marks_threshold (n : ℕ) : marks [thresholdToken n] = [(str% "input", some (str% "input_threshold"), none, some (str% "form-control"))] := rfl

theorem marks_controls (version : Str) (repos : List Str) (a : CompareArgs) (wasCached : Bool) :
    marks (controlTokens version repos a wasCached) = resultMarks := by
  have e0 : marks (tokens pageStart) = [(str% "div", none, none, some (str% "form-check form-switch")),
    (str% "input", some (str% "lightSwitch"), none, some (str% "form-check-input")), (str% "table", some (str% "config_table"), none, none)] := by decide +kernel
  have e1 : marks (tokens pageVersionEnd) = [] := by decide +kernel
  have e2 : marks (tokens pageRepoOpen) = [(str% "select", some (str% "select_repo"), none, none)] := by decide +kernel
  have e3 : marks (tokens pageRepoClose) = [] := by decide +kernel
  have e4 : marks (tokens pageAfterOld) = [] := by decide +kernel
  have e5 : marks (tokens pageRowNext) = [] := by decide +kernel
  have e6 : marks (tokens pageCellNext) = [] := by decide +kernel
  have e7 : marks (tokens pageThresholdOpen) = [(str% "div", none, none, some (str% "input-group"))] := by decide +kernel
  have e8 : marks (tokens pageAfterThreshold) = [(str% "div", none, none, some (str% "input-group-append"))] := by decide +kernel
  have e9 : marks (tokens pageUnitOpen) = [(str% "select", some (str% "select_unit"), none, none)] := by decide +kernel
  have e10 : marks (tokens pageUnitClose) = [] := by decide +kernel
  have e11 : marks (tokens pageMethodOpen) = [(str% "select", some (str% "select_method"), none, none)] := by decide +kernel
  have e12 : marks (tokens pageHit) = [] := by decide +kernel
  have e13 : marks (tokens pageControlsEnd) = [] := by decide +kernel
  unfold controlTokens
  simp only [marks_append, marks_chars, marks_input, marks_checkbox, marks_threshold, marks_flatMap (fun _ _ => marks_option _ _), marks_pageTop, e0, e1, e2, e3,
    e4, e5, e6, e7, e8, e9, e10, e11, e12, e13]
  rw [marks_links (str% "Repository") (by decide)]
  rw [marks_links (str% "Path Pattern") (by decide)]
  rw [marks_links (str% "Pallet") (by decide)]
  rw [marks_links (str% "Extrinsic") (by decide)]
  rw [marks_links (str% "Rel Threshold") (by decide)]
  rw [marks_links (str% "Dimension") (by decide)]
  rw [marks_links (str% "Evaluation Method") (by decide)]
  rw [marks_links (str% "Ignore Errors") (by decide)]
  rw [marks_links (str% "Git Pull") (by decide)]
  rw [marks_links (str% "Cache") (by decide)]
  simp only [List.append_nil, List.append_assoc]
  rfl

theorem marks_messages {opening lead : Str} {l : List (Str × Option Str × Option Str × Option Str)} (messages : List Str) (ho : marks (tokens opening) = [])
    (hl : marks (tokens lead) = l) : marks (messageTokens opening lead messages) = if messages = [] then [] else l := by
  unfold messageTokens
  split
  · rfl
  · have h1 : marks (messages.flatMap fun m => tokens pageLineSpace ++ m.map .char ++ tokens pageLineEnd) = [] := by
      apply marks_flatMap
      intro m _
      have e1 : marks (tokens pageLineSpace) = [] := by decide +kernel
      have e2 : marks (tokens pageLineEnd) = [] := by decide +kernel
      rw [marks_append, marks_append, e1, e2, marks_chars]
      rfl
    have h2 : marks (tokens pageListEnd) = [] := by decide +kernel
    rw [marks_append, marks_append, marks_append, marks_append, ho, hl, h1, h2, marks_chars]
    simp

/-- A list of messages. -/
def listMarks (id : Str) : List (Str × Option Str × Option Str × Option Str) :=
  [(str% "div", some id, none, some (str% "collapse")), divMark (str% "card card-body text-dark bg-light")]

theorem namedBy_append (a b : List Token) (id : Str) : namedBy (a ++ b) id = namedBy a id ++ namedBy b id := List.filterMap_append
theorem scriptsOf_append (a b : List Token) : scriptsOf (a ++ b) = scriptsOf a ++ scriptsOf b := List.filterMap_append
theorem divClasses_append (a b : List Token) : divClasses (a ++ b) = divClasses a ++ divClasses b := List.filterMap_append

theorem namedBy_nil {ts : List Token} {id : Str} (h : id ∉ ids ts) : namedBy ts id = [] := by
  rw [List.eq_nil_iff_forall_not_mem]
  intro n hn
  obtain ⟨t, ht, hn⟩ := List.mem_filterMap.1 hn
  cases t with
  | char c => cases hn
  | stop n => cases hn
  | start name attrs =>
    dsimp only at hn
    split at hn
    · next hi => exact h (List.mem_filterMap.2 ⟨_, ht, hi⟩)
    · cases hn

theorem scriptsOf_rows {ts : List Token} (h : ts.all rowToken = true) : scriptsOf ts = [] := by
  rw [List.eq_nil_iff_forall_not_mem]
  intro n hn
  obtain ⟨t, ht, hn⟩ := List.mem_filterMap.1 hn
  have hr := List.all_eq_true.1 h t ht
  cases t with
  | char c => cases hn
  | stop n => cases hn
  | start name attrs =>
    dsimp only at hn
    split at hn
    · next hi => subst hi; exact Bool.noConfusion hr
    · cases hn

theorem divClasses_rows {ts : List Token} (h : ts.all rowToken = true) : divClasses ts = [] := by
  rw [List.eq_nil_iff_forall_not_mem]
  intro n hn
  obtain ⟨t, ht, hn⟩ := List.mem_filterMap.1 hn
  have hr := List.all_eq_true.1 h t ht
  cases t with
  | char c => cases hn
  | stop n => cases hn
  | start name attrs =>
    dsimp only at hn
    split at hn
    · next hi => subst hi; exact Bool.noConfusion hr
    · cases hn

/-- What the scripts see of a result page. -/
theorem result_marks {b : Build} {version : Str} {repos : List Str} {org : Str} {a : CompareArgs} {diff : List ExtrinsicDiff} {wasCached : Bool} {page : Str}
    (hr : BareNames repos) (h1 : Inert org) (h2 : Inert a.repo) (h3 : Inert a.old) (h4 : Inert a.new) (he : ∀ e ∈ diff, InertEntry e)
    (h : comparePage b version repos org a diff wasCached = .ok page) :
    ∃ errors warnings : Bool,
      let l := resultMarks ++ (if errors then listMarks (str% "collapseErrors") else []) ++ (if warnings then listMarks (str% "collapseWarns") else [])
        ++ [(str% "table", some (str% "sort_me"), none, some (str% "display table"))]
      (∀ id, '.' ∉ id → namedBy (tokens page) id = l.filterMap (markId id)) ∧ scriptsOf (tokens page) = l.filterMap markScript ∧
        divClasses (tokens page) = l.filterMap markDiv := by
  obtain ⟨table, ts, -, hn, hi, -, e⟩ := page_parts hr h1 h2 h3 h4 he h
  refine ⟨decide (diff.filterMap ExtrinsicDiff.error ≠ []), decide (diff.filterMap ExtrinsicDiff.warning ≠ []), ?_⟩
  have em : marks (controlTokens version repos a wasCached ++ messageTokens pageErrorsOpen pageErrorsLead (diff.filterMap ExtrinsicDiff.error)
        ++ tokens pageBetween ++ messageTokens pageWarningsOpen pageWarningsLead (diff.filterMap ExtrinsicDiff.warning) ++ tokens (pageHeader a.unit)) =
      resultMarks ++ (if decide (diff.filterMap ExtrinsicDiff.error ≠ []) then listMarks (str% "collapseErrors") else [])
        ++ (if decide (diff.filterMap ExtrinsicDiff.warning ≠ []) then listMarks (str% "collapseWarns") else [])
        ++ [(str% "table", some (str% "sort_me"), none, some (str% "display table"))] := by
    have hb : marks (tokens pageBetween) = [] := by decide +kernel
    have hh : marks (tokens (pageHeader a.unit)) = [(str% "table", some (str% "sort_me"), none, some (str% "display table"))] := by cases a.unit <;> decide +kernel
    rw [marks_append, marks_append, marks_append, marks_append, marks_controls, hb, hh,
      marks_messages (l := listMarks (str% "collapseErrors")) _ (by decide +kernel) (by decide +kernel),
      marks_messages (l := listMarks (str% "collapseWarns")) _ (by decide +kernel) (by decide +kernel)]
    generalize diff.filterMap ExtrinsicDiff.error = x
    generalize diff.filterMap ExtrinsicDiff.warning = y
    by_cases hx : x = [] <;> by_cases hy : y = [] <;> simp [hx, hy]
  have hbot : marks (tokens pageBottom) = [] := by decide +kernel
  rw [e, ← em]
  refine ⟨fun id hid => ?_, ?_, ?_⟩
  · rw [namedBy_append, namedBy_append, namedBy_nil fun hm => hid (hi _ hm), namedBy_marks (tokens pageBottom), hbot, namedBy_marks]
    simp
  · rw [scriptsOf_append, scriptsOf_append, scriptsOf_rows hn, scriptsOf_marks (tokens pageBottom), hbot, scriptsOf_marks]
    simp
  · rw [divClasses_append, divClasses_append, divClasses_rows hn, divClasses_marks (tokens pageBottom), hbot, divClasses_marks]
    simp

/-- **C96.** On every result page the script for its table and the one for its theme find one element for each of their identifiers, and all scripts exist.  The
page has nothing that could show that the user has to wait. -/
theorem C96_result {b : Build} {version : Str} {repos : List Str} {org : Str} {a : CompareArgs} {diff : List ExtrinsicDiff} {wasCached : Bool} {page : Str}
    (hr : BareNames repos) (h1 : Inert org) (h2 : Inert a.repo) (h3 : Inert a.old) (h4 : Inert a.new) (he : ∀ e ∈ diff, InertEntry e)
    (h : comparePage b version repos org a diff wasCached = .ok page) :
    Belongs (tokens page) (str% "table.js") tableScriptIds ∧ Belongs (tokens page) (str% "darkmode.js") themeScriptIds ∧ FromServer (tokens page) staticFiles ∧
      ∀ c ∈ loadingClasses, divsWith (tokens page) c = 0 := by
  obtain ⟨x, y, hn, hs, hd⟩ := result_marks hr h1 h2 h3 h4 he h
  have nodot : ∀ p ∈ tableScriptIds ++ themeScriptIds, '.' ∉ p.1 := by decide +kernel
  refine ⟨⟨?_, fun p hp => ?_⟩, ⟨?_, fun p hp => ?_⟩, ?_, ?_⟩
  · rw [hs]
    cases x <;> cases y <;> decide +kernel
  · rw [hn p.1 (nodot p (List.mem_append_left _ hp))]
    revert p
    cases x <;> cases y <;> decide +kernel
  · rw [hs]
    cases x <;> cases y <;> decide +kernel
  · rw [hn p.1 (nodot p (List.mem_append_right _ hp))]
    revert p
    cases x <;> cases y <;> decide +kernel
  · unfold FromServer
    rw [hs]
    cases x <;> cases y <;> decide +kernel
  · unfold divsWith
    rw [hd]
    cases x <;> cases y <;> decide +kernel

/-- **C96, the negative half.** On no result page is the table closed: the end tags that browsers need to see where it ends are missing (`compare.stpl` opens it in
line 138), and they close it at the end of the page. -/
theorem C96_false_table {b : Build} {version : Str} {repos : List Str} {org : Str} {a : CompareArgs} {diff : List ExtrinsicDiff} {wasCached : Bool} {page : Str}
    (hr : BareNames repos) (h1 : Inert org) (h2 : Inert a.repo) (h3 : Inert a.old) (h4 : Inert a.new) (he : ∀ e ∈ diff, InertEntry e)
    (h : comparePage b version repos org a diff wasCached = .ok page) :
    ∃ before after attrs, tokens page = before ++ .start (str% "table") attrs :: after ∧ attrs.lookup (str% "id") = some (str% "sort_me") ∧
      Token.stop (str% "table") ∉ after := by
  obtain ⟨table, ts, -, hn, -, -, e⟩ := page_parts hr h1 h2 h3 h4 he h
  have ho : Token.start (str% "table") [(str% "id", str% "sort_me"), (str% "class", str% "display table")] ∈ tokens (pageHeader a.unit) := by
    cases a.unit <;> decide +kernel
  have hc : Token.stop (str% "table") ∉ tokens (pageHeader a.unit) := by cases a.unit <;> decide +kernel
  have hb : Token.stop (str% "table") ∉ tokens pageBottom := by decide +kernel
  obtain ⟨x, y, hxy⟩ := List.append_of_mem ho
  rw [hxy] at e hc
  simp only [List.mem_append, List.mem_cons, not_or] at hc
  refine ⟨controlTokens version repos a wasCached ++ messageTokens pageErrorsOpen pageErrorsLead (diff.filterMap ExtrinsicDiff.error)
        ++ tokens pageBetween ++ messageTokens pageWarningsOpen pageWarningsLead (diff.filterMap ExtrinsicDiff.warning) ++ x, y ++ ts ++ tokens pageBottom,
    [(str% "id", str% "sort_me"), (str% "class", str% "display table")], by rw [e]; simp only [List.append_assoc, List.cons_append], by decide, ?_⟩
  simp only [List.mem_append, not_or]
  exact ⟨⟨hc.2.2, fun hm => absurd (List.all_eq_true.1 hn _ hm) (by decide)⟩, hb⟩

/-! ### The other pages -/

theorem marks_root (repos : List Str) : marks (tokens (rootPage repos)) =
    (headerScripts ++ [str% "https://cdn.jsdelivr.net/npm/select2@4.1.0-rc.0/dist/js/select2.min.js", str% "/static/root.js"]).map scriptMark
      ++ (marks (tokens rootStart) ++ marks (tokens rootCountEnd) ++ marks (tokens rootFirst) ++ marks (tokens rootSecond) ++ marks (tokens rootVerify)) := by
  have hl : marks (repos.flatMap (fun r => (str% "\n\t\t\t\t\t\t\t\t\t\t\t\t").map Token.char ++ [.start (str% "option") [(str% "value", asciiLower r)]] ++ r.map .char
      ++ (Token.stop (str% "option") :: (str% "\n\t\t\t\t\t\t\t\t\t\t\t").map .char))) = [] := by
    apply marks_flatMap
    intro r _
    rw [marks_append, marks_append, marks_append, marks_chars, marks_chars]
    rfl
  have e1 : marks (tokens rootHeadOpen) = [] := by decide +kernel
  have e2 : marks (tokens rootHeadLinks) = [str% "https://cdn.jsdelivr.net/npm/select2@4.1.0-rc.0/dist/js/select2.min.js", str% "/static/root.js"].map scriptMark := by
    decide +kernel
  rw [root_tokens, whole_tokens rootTop_tokens, whole_tokens rootBottom_tokens]
  simp only [marks_append, hl, marks_chars, marks_header, e1, e2]
  simp only [List.map_append, List.append_nil, List.nil_append, List.append_assoc]

/-- **C96.** So on the start page, except for one identifier. -/
theorem C96_start (repos : List Str) :
    Belongs (tokens (rootPage repos)) (str% "root.js") startScriptIds ∧ str% "/static/darkmode.js" ∈ scriptsOf (tokens (rootPage repos)) ∧
      FromServer (tokens (rootPage repos)) staticFiles ∧ ∀ c ∈ loadingClasses, divsWith (tokens (rootPage repos)) c = 1 := by
  refine ⟨⟨?_, ?_⟩, ?_, ?_, ?_⟩
  · rw [scriptsOf_marks, marks_root]
    decide +kernel
  · simp only [namedBy_marks, marks_root]
    decide +kernel
  · rw [scriptsOf_marks, marks_root]
    decide +kernel
  · unfold FromServer
    rw [scriptsOf_marks, marks_root]
    decide +kernel
  · unfold divsWith
    rw [divClasses_marks, marks_root]
    decide +kernel

/-- **C96, the negative half.** The identifier of the button "fetch" is there twice, once on the step for the first revision and once on that for the second: the
script, which attaches its handler to the first one (`StartPage.step`), leaves the other one dead.  The start page has no switch for dark pages. -/
theorem C96_false_fetch (repos : List Str) : namedBy (tokens (rootPage repos)) (str% "fetch") = [str% "button", str% "button"] ∧
    (∀ served p, StartPage.step served p .fetchSecond = some p) ∧ namedBy (tokens (rootPage repos)) (str% "lightSwitch") = [] := by
  refine ⟨?_, fun _ _ => rfl, ?_⟩
  · rw [namedBy_marks, marks_root]
    decide +kernel
  · rw [namedBy_marks, marks_root]
    decide +kernel

theorem marks_mr {repos : List Repo} (h : ∀ r ∈ repos, ∀ c ∈ r.organization ++ r.name, isBlank c = false) : marks (tokens (mergeRequestPage repos)) =
    (headerScripts ++ [str% "https://cdn.jsdelivr.net/npm/select2@4.1.0-rc.0/dist/js/select2.min.js"] ++ tableScripts ++
      [str% "https://cdnjs.cloudflare.com/ajax/libs/moment.js/2.29.4/moment.min.js", str% "/static/merge_requests.js", str% "/static/common.js"]).map scriptMark
      ++ (marks (tokens mrStart) ++ marks (tokens mrBottom)) := by
  have hl : marks (repos.flatMap (fun r => (str% "\n\t\t\t\t\t\t\t").map Token.char ++ [.start (str% "option") [(str% "value", r.organization ++ str% ":" ++ r.name)]]
      ++ (r.organization ++ str% ":" ++ r.name).map .char ++ (Token.stop (str% "option") :: (str% "\n\t\t\t\t\t\t").map .char))) = [] := by
    apply marks_flatMap
    intro r _
    rw [marks_append, marks_append, marks_append, marks_chars, marks_chars]
    rfl
  have e1 : marks (tokens mrHeadOpen) = [] := by decide +kernel
  have e2 : marks (tokens mrHeadLinks) = ([str% "https://cdn.jsdelivr.net/npm/select2@4.1.0-rc.0/dist/js/select2.min.js"] ++ tableScripts ++
      [str% "https://cdnjs.cloudflare.com/ajax/libs/moment.js/2.29.4/moment.min.js", str% "/static/merge_requests.js", str% "/static/common.js"]).map scriptMark := by
    decide +kernel
  rw [mr_tokens h, List.nil_append, whole_tokens mrTop_tokens]
  simp only [marks_append, hl, marks_header, e1, e2]
  simp only [List.map_append, List.append_nil, List.nil_append, List.append_assoc]

/-- **C96.** So on the page of the merge requests. -/
theorem C96_merge_requests {repos : List Repo} (h : ∀ r ∈ repos, ∀ c ∈ r.organization ++ r.name, isBlank c = false) :
    Belongs (tokens (mergeRequestPage repos)) (str% "merge_requests.js") mergeScriptIds ∧
      Belongs (tokens (mergeRequestPage repos)) (str% "darkmode.js") themeScriptIds ∧
      FromServer (tokens (mergeRequestPage repos)) staticFiles ∧ ∀ c ∈ loadingClasses, divsWith (tokens (mergeRequestPage repos)) c = 1 := by
  refine ⟨⟨?_, ?_⟩, ⟨?_, ?_⟩, ?_, ?_⟩
  · rw [scriptsOf_marks, marks_mr h]
    decide +kernel
  · simp only [namedBy_marks, marks_mr h]
    decide +kernel
  · rw [scriptsOf_marks, marks_mr h]
    decide +kernel
  · simp only [namedBy_marks, marks_mr h]
    decide +kernel
  · unfold FromServer
    rw [scriptsOf_marks, marks_mr h]
    decide +kernel
  · unfold divsWith
    rw [divClasses_marks, marks_mr h]
    decide +kernel

/-- **C96.** So on the page of an error, which only has the script for its theme. -/
theorem C96_error (msg : Str) :
    Belongs (tokens (errorPage msg)) (str% "darkmode.js") themeScriptIds ∧ FromServer (tokens (errorPage msg)) staticFiles := by
  have e : marks (tokens (errorPage msg)) = headerScripts.map scriptMark ++ marks (tokens errorStart) := by
    have e1 : marks (tokens errorHeadOpen) = [] := by decide +kernel
    have e2 : marks (tokens errorHeadLinks) = [] := by decide +kernel
    have e3 : marks (tokens errorBottom) = [] := by decide +kernel
    rw [error_tokens, whole_tokens errorTop_tokens]
    simp only [marks_append, marks_chars, marks_header, e1, e2, e3, List.append_nil, List.nil_append, List.append_assoc]
  refine ⟨⟨?_, ?_⟩, ?_⟩
  · rw [scriptsOf_marks, e]
    decide +kernel
  · simp only [namedBy_marks, e]
    decide +kernel
  · unfold FromServer
    rw [scriptsOf_marks, e]
    decide +kernel

/-! ### Examples -/

example : Belongs (tokens exPage) (str% "table.js") tableScriptIds :=
  (C96_result exPage_bare (by decide) (by decide) (by decide) (by decide) exPage_inert exPage_ok).1

example : tableScriptIds.length = 12 := by decide +kernel

example : Belongs (tokens (mergeRequestPage [⟨str% "polkadot-sdk", [], str% "paritytech"⟩])) (str% "merge_requests.js") mergeScriptIds :=
  (C96_merge_requests (by decide)).1

/-- A page without the table does not belong to the script. -/
example : ¬ Belongs (tokens (errorPage [])) (str% "table.js") tableScriptIds := fun h => absurd (h.found _ List.mem_cons_self) (by decide +kernel)

end Swc
