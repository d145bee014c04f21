/-
C74, C75: the page of an error, the start page and the page of the merge requests.
-/
import Verif.Props.PageTable

namespace Swc

open Spec

theorem charsOf_append (a b : List Token) : charsOf (a ++ b) = charsOf a ++ charsOf b := List.filterMap_append

theorem charsOf_chars (s : Str) : charsOf (s.map .char) = s := by
  induction s with
  | nil => rfl
  | cons c s ih =>
    have : charsOf ((c :: s).map Token.char) = c :: charsOf (s.map Token.char) := rfl
    rw [this, ih]

/-- The text of an element that starts in a constant part and ends in another one. -/
theorem textOf_between {k c : List Token} {name s : Str} (rest : List Token)
    (hk : (k.dropWhile fun t => !isStart name t) = [.start name []] ∨ ∃ attrs, (k.dropWhile fun t => !isStart name t) = [.start name attrs])
    (hc : ∃ c', c = .stop name :: c') : textOf (k ++ s.map .char ++ c ++ rest) name = s := by
  have hk' : ∃ attrs, (k.dropWhile fun t => !isStart name t) = [.start name attrs] := hk.elim (fun h => ⟨[], h⟩) id
  obtain ⟨attrs, hk⟩ := hk'
  obtain ⟨c, rfl⟩ := hc
  have hd : ((k ++ s.map Token.char ++ (Token.stop name :: c) ++ rest).dropWhile fun t => !isStart name t) =
      .start name attrs :: (s.map Token.char ++ (Token.stop name :: c) ++ rest) := by
    have : ∀ (k r : List Token), (k.dropWhile fun t => !isStart name t) ≠ [] →
        ((k ++ r).dropWhile fun t => !isStart name t) = (k.dropWhile fun t => !isStart name t) ++ r := by
      intro k r hne
      rw [List.dropWhile_append, if_neg (by simpa using hne)]
    rw [List.append_assoc, List.append_assoc, this k _ (by rw [hk]; simp), hk]
    simp
  rw [textOf, hd, List.drop_one, List.tail_cons, List.append_assoc, takeWhile_pass _ (by simp)]
  have e : ((Token.stop name :: c) ++ rest).takeWhile (· ≠ Token.stop name) = [] := by simp
  rw [e, List.append_nil, charsOf_chars]

theorem errorTop_tokens : Whole errorTop (tokens errorHeadOpen ++ tokens header ++ tokens errorHeadLinks ++ tokens errorStart) :=
  whole_top (by decide +kernel) (by decide +kernel) (by decide +kernel)

theorem whole_errorTop : Whole errorTop (tokens errorTop) := by
  rw [whole_tokens errorTop_tokens]
  exact errorTop_tokens

theorem error_tokens (msg : Str) : tokens (errorPage msg) = tokens errorTop ++ msg.map .char ++ tokens errorBottom :=
  whole_tokens (whole_append (whole_append whole_errorTop (whole_escape msg)) (whole_of (by decide +kernel)))

/-- **C74.** The page of an error shows the message, whatever it is, and has no other tags than without it. -/
theorem C74_error_page (msg : Str) : textOf (tokens (errorPage msg)) (str% "h2") = msg ∧
    (tokens (errorPage msg)).filter isTag = (tokens (errorPage [])).filter isTag := by
  constructor
  · rw [error_tokens, ← List.append_nil (_ ++ tokens errorBottom)]
    exact textOf_between [] (.inl (by decide +kernel)) ⟨(tokens errorBottom).tail, by decide +kernel⟩
  · have hz : (msg.map Token.char).filter isTag = [] := by
      rw [List.filter_eq_nil_iff]
      intro t ht
      obtain ⟨c, _, rfl⟩ := List.mem_map.1 ht
      exact Bool.false_ne_true
    rw [error_tokens, error_tokens, List.filter_append, List.filter_append, hz, List.filter_append, List.filter_append]
    rfl

/-- **C74.** When a comparison fails, cannot be read or concerns an unknown repository, the answer is a page with that message and the status 500;
otherwise it is the page of the comparison with the status 200. -/
theorem C74_response (b : Build) (version : Str) (repos : List Str) (parsed : Except Str CompareArgs) (org : Option Str)
    (outcome : Res (List ExtrinsicDiff × Bool)) (r : Response) (h : compareResponse b version repos parsed org outcome = .ok r) :
    (r.status = 500 ∧ ∃ msg, textOf (tokens r.body) (str% "h2") = msg ∧
      (parsed = .error msg ∨ (∃ a, parsed = .ok a ∧ org = none ∧ msg = str% "Unknown repo organization '" ++ a.repo ++ str% "'") ∨
        ∃ a o, parsed = .ok a ∧ org = some o ∧ outcome = .err msg)) ∨
    (r.status = 200 ∧ ∃ a o diff cached, parsed = .ok a ∧ org = some o ∧ outcome = .ok (diff, cached) ∧
      comparePage b version repos o a diff cached = .ok r.body) := by
  unfold compareResponse at h
  cases parsed with
  | error e => cases h; exact .inl ⟨rfl, e, (C74_error_page e).1, .inl rfl⟩
  | ok a =>
    cases org with
    | none => cases h; exact .inl ⟨rfl, _, (C74_error_page _).1, .inr (.inl ⟨a, rfl, rfl, rfl⟩)⟩
    | some o =>
      cases outcome with
      | err e => cases h; exact .inl ⟨rfl, e, (C74_error_page e).1, .inr (.inr ⟨a, o, rfl, rfl, rfl⟩)⟩
      | panic => cases h
      | diverge => cases h
      | ok p =>
        obtain ⟨diff, cached⟩ := p
        dsimp only at h
        cases hp : comparePage b version repos o a diff cached with
        | ok body => rw [hp] at h; cases h; exact .inr ⟨rfl, a, o, diff, cached, rfl, rfl, rfl, hp⟩
        | err e => rw [hp] at h; cases h
        | panic => rw [hp] at h; cases h
        | diverge => rw [hp] at h; cases h

/-! ### Lists of repositories -/

theorem optionsIn_chars (p : Str × Str) (s : Str) (rest : List Token) : optionsIn (some p) (s.map .char ++ rest) = optionsIn (some (p.1, p.2 ++ s)) rest := by
  induction s generalizing p with
  | nil => simp
  | cons c s ih =>
    rw [List.map_cons, List.cons_append, optionsIn, Option.map_some, ih]
    simp

theorem optionsIn_blank (s : Str) (rest : List Token) : optionsIn none (s.map .char ++ rest) = optionsIn none rest := by
  induction s with
  | nil => rfl
  | cons c s ih => exact ih

/-- The options of a list whose parts are constant. -/
theorem optionsIn_list {α : Type} (l : List α) (val text : α → Str) (sp en : Str) (rest : List Token) :
    optionsIn none (l.flatMap (fun x => sp.map Token.char ++ [.start (str% "option") [(str% "value", val x)]] ++ (text x).map .char
      ++ (Token.stop (str% "option") :: en.map .char)) ++ rest) = l.map (fun x => (val x, text x)) ++ optionsIn none rest := by
  induction l with
  | nil => rfl
  | cons x l ih =>
    rw [List.flatMap_cons]
    simp only [List.append_assoc, List.cons_append, List.nil_append] at ih ⊢
    rw [optionsIn_blank, optionsIn, if_pos rfl, optionsIn_chars, optionsIn, if_pos rfl, optionsIn_blank, ih]
    rfl

theorem offers_list {α : Type} (l : List α) (val text : α → Str) (sp en : Str) {id : Str} {pre k c : List Token} (hp : id ∉ ids pre) (hk : id ∈ ids k)
    (hk' : ∃ w : Str, afterId id k = w.map .char) (hc : ∃ w : Str, c.takeWhile (· ≠ .stop (str% "select")) = w.map .char) :
    offers (pre ++ k ++ l.flatMap (fun x => sp.map Token.char ++ [.start (str% "option") [(str% "value", val x)]] ++ (text x).map .char
      ++ (Token.stop (str% "option") :: en.map .char)) ++ c) id = l.map fun x => (val x, text x) := by
  obtain ⟨w, hw⟩ := hk'
  obtain ⟨v, hv⟩ := hc
  rw [offers, List.append_assoc, List.append_assoc, afterId_skip hp, afterId_hit _ hk, hw, takeWhile_pass _ (by simp), takeWhile_pass _ (by simp), hv,
    optionsIn_blank, optionsIn_list]
  have := optionsIn_blank v []
  rw [List.append_nil] at this
  rw [this, optionsIn, List.append_nil]

/-- A start tag with one attribute. -/
theorem whole_option_quoted (v : Str) : Whole (str% "<option value=\"" ++ escapeHtml v ++ str% "\">") [.start (str% "option") [(str% "value", v)]] :=
  feed_append_of (feed_append_of (st1 := .text (.quoted '"' ⟨false, str% "option", []⟩ (str% "value") [])) (t1 := []) rfl (feed_escape_quoted _ _ _ _)) rfl

theorem whole_option_bare {v : Str} (h0 : v ≠ []) (h : ∀ c ∈ v, isBlank c = false) :
    Whole (str% "<option value=" ++ escapeHtml v ++ str% ">") [.start (str% "option") [(str% "value", v)]] :=
  feed_append_of (feed_append_of (st1 := .beforeValue ⟨false, str% "option", []⟩ (str% "value")) (t1 := []) rfl (feed_escape_value _ _ _ h0 h)) rfl

theorem rootTop_tokens : Whole rootTop (tokens rootHeadOpen ++ tokens header ++ tokens rootHeadLinks ++ tokens rootStart) :=
  whole_top (by decide +kernel) (by decide +kernel) (by decide +kernel)

theorem whole_rootTop : Whole rootTop (tokens rootTop) := by
  rw [whole_tokens rootTop_tokens]
  exact rootTop_tokens

theorem rootBottom_tokens : Whole rootBottom (tokens rootFirst ++ tokens rootSecond ++ tokens rootVerify) :=
  whole_append (whole_append (whole_of (by decide +kernel)) (whole_of (by decide +kernel))) (whole_of (by decide +kernel))

theorem whole_rootBottom : Whole rootBottom (tokens rootBottom) := by
  rw [whole_tokens rootBottom_tokens]
  exact rootBottom_tokens

theorem mrTop_tokens : Whole mrTop (tokens mrHeadOpen ++ tokens header ++ tokens mrHeadLinks ++ tokens mrStart) :=
  whole_top (by decide +kernel) (by decide +kernel) (by decide +kernel)

theorem whole_mrTop : Whole mrTop (tokens mrTop) := by
  rw [whole_tokens mrTop_tokens]
  exact mrTop_tokens

theorem root_tokens (repos : List Str) : tokens (rootPage repos) = tokens rootTop ++ (natToStr repos.length).map .char ++ tokens rootCountEnd
    ++ repos.flatMap (fun r => (str% "\n\t\t\t\t\t\t\t\t\t\t\t\t").map Token.char ++ [.start (str% "option") [(str% "value", asciiLower r)]] ++ r.map .char
      ++ (Token.stop (str% "option") :: (str% "\n\t\t\t\t\t\t\t\t\t\t\t").map .char)) ++ tokens rootBottom := by
  apply whole_tokens
  unfold rootPage rootOptions
  rw [List.flatMap_map]
  refine whole_append (whole_append (whole_append (whole_append whole_rootTop (whole_escape _)) (whole_of (by decide +kernel))) ?_)
    whole_rootBottom
  exact whole_flatMap fun r _ => whole_append (whole_append (whole_append (by decide +kernel : feed (.text .data) rootOptSpace = _) (whole_option_quoted _))
    (whole_escape _)) (by decide +kernel : feed (.text .data) rootOptEnd = _)

/-- **C75.** The start page shows the number of repositories and offers all of them, by their names in lower case. -/
theorem C75_start_list (repos : List Str) : offers (tokens (rootPage repos)) (str% "repoSelect") = repos.map (fun r => (asciiLower r, r)) ∧
    textOf (tokens (rootPage repos)) (str% "var") = natToStr repos.length := by
  rw [root_tokens]
  constructor
  · refine offers_list repos asciiLower (fun r => r) _ _ ?_ (by decide +kernel) ⟨str% "\n\t\t\t\t\t\t\t\t\t\t\t", by decide +kernel⟩
      ⟨str% "\n\t\t\t\t\t\t\t\t\t\t", by decide +kernel⟩
    rw [ids_append, ids_chars, List.append_nil]
    decide +kernel
  · rw [List.append_assoc]
    exact textOf_between _ (.inl (by decide +kernel)) ⟨(tokens rootCountEnd).tail, by decide +kernel⟩

theorem mr_tokens {repos : List Repo} (h : ∀ r ∈ repos, ∀ c ∈ r.organization ++ r.name, isBlank c = false) :
    tokens (mergeRequestPage repos) = [] ++ tokens mrTop
    ++ repos.flatMap (fun r => (str% "\n\t\t\t\t\t\t\t").map Token.char ++ [.start (str% "option") [(str% "value", r.organization ++ str% ":" ++ r.name)]]
      ++ (r.organization ++ str% ":" ++ r.name).map .char
      ++ (Token.stop (str% "option") :: (str% "\n\t\t\t\t\t\t").map .char)) ++ tokens mrBottom := by
  apply whole_tokens
  rw [List.nil_append]
  unfold mergeRequestPage
  refine whole_append (whole_append whole_mrTop ?_) (whole_of (by decide +kernel))
  refine whole_flatMap fun r hr => whole_append (whole_append (whole_append (by decide +kernel : feed (.text .data) mrOptSpace = _)
    (whole_option_bare (by simp) fun c hc => ?_)) (whole_escape _)) (by decide +kernel : feed (.text .data) mrOptEnd = _)
  simp only [List.mem_append, List.mem_singleton] at hc
  rcases hc with (hc | rfl) | hc
  · exact h r hr c (List.mem_append_left _ hc)
  · decide
  · exact h r hr c (List.mem_append_right _ hc)

theorem splitAtChar_of_not {sep : Char} {s : Str} (acc : Str) (h : sep ∉ s) : splitAtChar sep acc s = [acc ++ s] := by
  induction s generalizing acc with
  | nil => simp [splitAtChar]
  | cons c s ih =>
    rw [splitAtChar, if_neg (fun hc => h (by rw [hc]; exact List.mem_cons_self)), ih _ fun hc => h (List.mem_cons_of_mem _ hc)]
    simp

theorem splitAtChar_two {sep : Char} {s t : Str} (acc : Str) (h : sep ∉ s) (h' : sep ∉ t) : splitAtChar sep acc (s ++ [sep] ++ t) = [acc ++ s, t] := by
  induction s generalizing acc with
  | nil => simp [splitAtChar, splitAtChar_of_not [] h']
  | cons c s ih =>
    rw [List.cons_append, List.cons_append, splitAtChar, if_neg (fun hc => h (by rw [hc]; exact List.mem_cons_self)), ih _ fun hc => h (List.mem_cons_of_mem _ hc)]
    simp

/-- **C75.** The page of the merge requests offers all repositories, and the two parts of a value are the organisation and the name. -/
theorem C75_merge_request_list {repos : List Repo} (h : ∀ r ∈ repos, ∀ c ∈ r.organization ++ r.name, isBlank c = false) :
    (offers (tokens (mergeRequestPage repos)) (str% "select_repo")).map Prod.snd = repos.map (fun r => r.organization ++ str% ":" ++ r.name) ∧
    ((∀ r ∈ repos, ':' ∉ r.organization ++ r.name) →
      (offers (tokens (mergeRequestPage repos)) (str% "select_repo")).map (fun p => splitAtChar ':' [] p.1) = repos.map fun r => [r.organization, r.name]) := by
  have e : offers (tokens (mergeRequestPage repos)) (str% "select_repo") =
      repos.map fun r => (r.organization ++ str% ":" ++ r.name, r.organization ++ str% ":" ++ r.name) := by
    rw [mr_tokens h]
    exact offers_list repos _ _ _ _ (by simp [ids]) (by decide +kernel) ⟨str% "\n\t\t\t\t\t\t", by decide +kernel⟩ ⟨str% "\n\t\t\t\t\t", by decide +kernel⟩
  rw [e]
  constructor
  · rw [List.map_map]
    rfl
  · intro hc
    rw [List.map_map]
    apply List.map_congr_left
    intro r hr
    have := hc r hr
    rw [List.mem_append, not_or] at this
    exact splitAtChar_two [] this.1 this.2

/-! ### Examples -/

/-- A request with characters that mean something in HTML. -/
def exPageArgs : CompareArgs :=
  { old := str% "v1", new := str% "HEAD", repo := str% "polkadot", pathPattern := str% "a/*.rs \"><b>", extrinsic := some (str% "<&'>"), pallet := none,
    ignoreErrors := true, threshold := 10, unit := .proof, gitPull := some false, method := .exactWorst }

/-- A report with a changed row, an error and a warning. -/
def exPageDiff : List ExtrinsicDiff :=
  [⟨str% "transfer", str% "a.rs", .changed (exRow .changed 2048 1024)⟩, ⟨str% "burn", str% "b.rs", .failed (str% "no weight")⟩,
    ⟨str% "mint", str% "c.rs", .warning (exRow .added 0 7) (str% "zero weight")⟩]

def exPage : Str := match comparePage .release (str% "1.0") [str% "polkadot", str% "substrate"] (str% "paritytech") exPageArgs exPageDiff true with
  | .ok s => s
  | _ => []

theorem exPage_ok : comparePage .release (str% "1.0") [str% "polkadot", str% "substrate"] (str% "paritytech") exPageArgs exPageDiff true = .ok exPage := by
  obtain ⟨page, h⟩ := C73_total (str% "1.0") [str% "polkadot", str% "substrate"] (str% "paritytech") exPageArgs exPageDiff true (by
    intro e he c hc hk
    simp only [exPageDiff, List.mem_cons, List.not_mem_nil, or_false] at he
    rcases he with rfl | rfl | rfl
    · cases hc; exact exRow_computed _ _ _ (by norm_num) (by norm_num)
    · cases hc
    · cases hc; exact absurd hk (by decide))
  rw [exPage, h]

theorem exPage_bare : BareNames [str% "polkadot", str% "substrate"] := by
  intro r hr
  simp only [List.mem_cons, List.not_mem_nil, or_false] at hr
  rcases hr with rfl | rfl <;> decide

theorem exPage_inert : ∀ e ∈ exPageDiff, InertEntry e := by
  intro e he
  simp only [exPageDiff, List.mem_cons, List.not_mem_nil, or_false] at he
  rcases he with rfl | rfl | rfl
  · exact ⟨by decide, by decide, fun m hm => (by cases hm), fun c m hm => (by cases hm), fun c t hc ht => (by cases hc; cases ht; intro x hx; cases hx), fun c t hc ht => (by cases hc; cases ht; intro x hx; cases hx)⟩
  · exact ⟨by decide, by decide, fun m hm => (by cases hm; decide), fun c m hm => (by cases hm), fun c t hc ht => (by cases hc), fun c t hc ht => (by cases hc)⟩
  · exact ⟨by decide, by decide, fun m hm => (by cases hm), fun c m hm => (by cases hm; decide), fun c t hc ht => (by cases hc; cases ht; intro x hx; cases hx), fun c t hc ht => (by cases hc; cases ht; intro x hx; cases hx)⟩

example : Shows (tokens exPage) exPageArgs := C72_controls exPage_bare exPage_ok
example : chosen (tokens exPage) (str% "select_repo") = some (str% "polkadot") := (C72_repo exPage_bare exPage_ok).2 (by decide)
example : linesOf (tokens exPage) (str% "collapseErrors") = [str% "no weight"] :=
  (C73_messages exPage_bare (by decide) (by decide) (by decide) (by decide) exPage_inert exPage_ok).1.trans (by decide +kernel)
example : (tableRows (tokens exPage) (str% "sort_me")).length = 2 :=
  (C73_rows exPage_bare (by decide) (by decide) (by decide) (by decide) exPage_inert exPage_ok).length_eq.symm.trans (by decide +kernel)

/-- The example by evaluation. -/
example : valueOf (tokens exPage) (str% "input_extrinsic") = some (str% "<&'>") ∧ chosen (tokens exPage) (str% "select_unit") = some (str% "proof") := by
  decide +kernel

example : textOf (tokens (errorPage (str% "bad <b>\"&amp;'"))) (str% "h2") = str% "bad <b>\"&amp;'" := (C74_error_page _).1
example : offers (tokens (rootPage [str% "Polkadot", str% "a \"b\""])) (str% "repoSelect") =
    [(str% "polkadot", str% "Polkadot"), (str% "a \"b\"", str% "a \"b\"")] := by decide +kernel
example : offers (tokens (mergeRequestPage [⟨str% "polkadot-sdk", [], str% "paritytech"⟩])) (str% "select_repo") =
    [(str% "paritytech:polkadot-sdk", str% "paritytech:polkadot-sdk")] := by decide +kernel

/-! ### Where the pages go wrong -/

/-- **C72, the negative half.** The value of an option for a repository has no quotes: a name with a blank is cut, and the page offers a repository that
does not exist. -/
theorem C72_false_blank : choices (tokens (pageControls [] [str% "my repo"] { exPageArgs with repo := str% "my repo" } false)) (str% "select_repo") =
    [(str% "my", true)] := by decide +kernel

/-- **C75, the negative half.** So is it on the page of the merge requests. -/
theorem C75_false_blank : offers (tokens (mergeRequestPage [⟨str% "my repo", [], str% "me"⟩])) (str% "select_repo") = [(str% "me:my", str% "me:my repo")] := by
  decide +kernel

/-- **C73, the negative half.** Revisions, file names, messages and equations are inserted without escaping; the revision `HEAD@{"><b>}`, which git
accepts, adds an element to the page.  The page without it has none. -/
theorem C73_false_escape :
    Token.start (str% "b") [] ∈ tokens (codeLink (str% "polkadot") (str% "paritytech") (str% "transfer") (str% "a.rs") (str% "HEAD@{\"><b>}")) ∧
    Token.start (str% "b") [] ∉ tokens (codeLink (str% "polkadot") (str% "paritytech") (str% "transfer") (str% "a.rs") (str% "HEAD")) := by decide +kernel

/-- **C73, the negative half.** An error message with a tag in it: the line shown is not the message. -/
theorem C73_false_message :
    linesOf (tokens (pageMessages pageErrorsOpen pageErrorsLead [str% "cannot read Vec<br>"])) (str% "collapseErrors") = [str% "cannot read Vec", []] := by
  decide +kernel

end Swc
