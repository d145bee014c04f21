/-
C97: the start page leads from step to step, and shows when it is waiting.
-/
import Verif.Spec.Steps
import Verif.Props.Scripts
import Verif.Props.StartPage

namespace Swc

open Spec

variable {served : List Str} {store : Str → Option Str}

/-! ### The steps -/

theorem formParts_append (a b : List Token) : formParts (a ++ b) = formParts a ++ formParts b := List.filterMap_append

theorem formParts_chars (s : Str) : formParts (s.map .char) = [] := by
  rw [formParts, List.filterMap_map, List.filterMap_eq_nil_iff]
  intro c _
  rfl

theorem formParts_flatMap {α : Type} {l : List α} {f : α → List Token} (h : ∀ x ∈ l, formParts (f x) = []) : formParts (l.flatMap f) = [] := by
  induction l with
  | nil => rfl
  | cons x l ih => rw [List.flatMap_cons, formParts_append, h x List.mem_cons_self, ih fun y hy => h y (List.mem_cons_of_mem _ hy)]; rfl

/-- The form of the start page. -/
def startSteps : List (List Str) :=
  [[str% "next", str% "action-button"], [str% "previous", str% "action-button-previous", str% "next", str% "action-button"],
    [str% "previous", str% "action-button-previous", str% "next", str% "action-button"], [str% "previous", str% "action-button-previous", str% "action-button"]]

/-- **C97.** Whatever repositories are offered, the form of the start page has four steps, with a button to the next one in all but the last and a button back in all
but the first. -/
theorem C97_buttons (repos : List Str) : (formSteps (tokens (rootPage repos))).length = 4 ∧ ∀ i < 4,
    (str% "next" ∈ (formSteps (tokens (rootPage repos))).getD i [] ↔ i + 1 < 4) ∧ (str% "previous" ∈ (formSteps (tokens (rootPage repos))).getD i [] ↔ 0 < i) := by
  have e : formSteps (tokens (rootPage repos)) = startSteps := by
    have hl : formParts (repos.flatMap (fun r => (str% "\n\t\t\t\t\t\t\t\t\t\t\t\t").map Token.char ++ [.start (str% "option") [(str% "value", asciiLower r)]] ++ r.map .char
        ++ (Token.stop (str% "option") :: (str% "\n\t\t\t\t\t\t\t\t\t\t\t").map .char))) = [] := by
      apply formParts_flatMap
      intro r _
      rw [formParts_append, formParts_append, formParts_append, formParts_chars, formParts_chars]
      rfl
    have e1 : formParts (tokens rootHeadOpen) = [] := by decide +kernel
    have e2 : formParts (tokens rootHeadLinks) = [] := by decide +kernel
    have e3 : formParts (tokens header) = [] := by decide +kernel
    unfold formSteps
    rw [root_tokens, whole_tokens rootTop_tokens, whole_tokens rootBottom_tokens]
    simp only [formParts_append, hl, formParts_chars, e1, e2, e3, List.append_nil, List.nil_append]
    decide +kernel
  rw [e]
  decide +kernel

theorem atStep_start : AtStep .start 0 := ⟨fun j => by simp [FormState.start], fun j => by simp [FormState.start]⟩

/-- The buttons of a form of `n` steps. -/
def Buttons (n : Nat) (buttons : List (List Str)) : Prop :=
  buttons.length = n ∧ ∀ i < n, (str% "next" ∈ buttons.getD i [] ↔ i + 1 < n) ∧ (str% "previous" ∈ buttons.getD i [] ↔ 0 < i)

theorem atStep_next {n k : Nat} {f : FormState} (h : AtStep f k) (hk : k + 1 < n) : AtStep (f.next n k) (k + 1) := by
  unfold FormState.next
  rw [if_pos hk]
  constructor
  · intro j
    dsimp only
    by_cases h1 : j = k + 1
    · simp [h1]
    · by_cases h2 : j = k
      · simp [h2]
      · simp [h1, h2, h.shown j]
  · intro j
    dsimp only
    by_cases h1 : j = k + 1
    · simp [h1]
    · rw [if_neg h1, h.active j]
      omega

theorem atStep_previous {k : Nat} {f : FormState} (h : AtStep f (k + 1)) : AtStep (f.previous (k + 1)) k := by
  unfold FormState.previous
  constructor
  · intro j
    dsimp only
    by_cases h1 : j = k
    · simp [h1]
    · by_cases h2 : j = k + 1
      · simp [h2]
      · simp [h1, h2, h.shown j]
  · intro j
    dsimp only
    by_cases h1 : j = k + 1
    · simp [h1]
    · rw [if_neg h1, h.active j]
      omega

theorem atStep_clicked {n : Nat} (hn : 0 < n) {buttons : List (List Str)} (hb : Buttons n buttons) {l : List FormClick} {f : FormState}
    (h : Clicked buttons l f) : ∃ k < n, AtStep f k := by
  induction h with
  | start => exact ⟨0, hn, atStep_start⟩
  | @click l f c f' _ hc ih =>
    obtain ⟨k, hk, ha⟩ := ih
    cases c with
    | next i =>
      unfold FormState.click at hc
      dsimp only at hc
      split at hc
      · next hi =>
        obtain rfl := Option.some.inj hc
        obtain rfl := (ha.shown i).1 hi.1
        have hlt := (hb.2 i hk).1.1 hi.2
        rw [hb.1]
        exact ⟨i + 1, hlt, atStep_next ha hlt⟩
      · cases hc
    | previous i =>
      unfold FormState.click at hc
      dsimp only at hc
      split at hc
      · next hi =>
        obtain rfl := Option.some.inj hc
        obtain rfl := (ha.shown i).1 hi.1
        have hlt := (hb.2 i hk).2.1 hi.2
        obtain ⟨j, rfl⟩ : ∃ j, i = j + 1 := ⟨i - 1, by omega⟩
        exact ⟨j, by omega, atStep_previous ha⟩
      · cases hc

/-- **C97.** However often the buttons of the form are clicked, exactly one of the four steps is shown and the progress bar marks exactly the steps up to it. -/
theorem C97_one_step (repos : List Str) {l : List FormClick} {f : FormState} (h : Clicked (formSteps (tokens (rootPage repos))) l f) : ∃ k < 4, AtStep f k :=
  atStep_clicked (by decide) (C97_buttons repos) h

/-- **C97.** From every step, every other one can be reached. -/
theorem C97_reach (repos : List Str) {l : List FormClick} {f : FormState} (h : Clicked (formSteps (tokens (rootPage repos))) l f) {k : Nat} (hk : k < 4) :
    ∃ l' f', Clicked (formSteps (tokens (rootPage repos))) (l ++ l') f' ∧ AtStep f' k := by
  have hb : Buttons 4 (formSteps (tokens (rootPage repos))) := C97_buttons repos
  generalize formSteps (tokens (rootPage repos)) = buttons at hb h ⊢
  obtain ⟨j, hj, ha⟩ := atStep_clicked (by decide) hb h
  have up : ∀ d j l f, Clicked buttons l f → AtStep f j → j + d < 4 → ∃ l' f', Clicked buttons (l ++ l') f' ∧ AtStep f' (j + d) := by
    intro d
    induction d with
    | zero => intro j l f h ha _; exact ⟨[], f, by rw [List.append_nil]; exact h, ha⟩
    | succ d ih =>
      intro j l f h ha hd
      have hlt : j + 1 < 4 := by omega
      have hc : f.click buttons (.next j) = some (f.next 4 j) := by
        rw [FormState.click, if_pos ⟨(ha.shown j).2 rfl, (hb.2 j (by omega)).1.2 hlt⟩, hb.1]
      obtain ⟨l', f', h1, h2⟩ := ih (j + 1) _ _ (.click h hc) (atStep_next ha hlt) (by omega)
      exact ⟨.next j :: l', f', by rw [List.append_assoc] at h1; exact h1, by rw [show j + (d + 1) = j + 1 + d by omega]; exact h2⟩
  have down : ∀ d l f, Clicked buttons l f → AtStep f (k + d) → k + d < 4 → ∃ l' f', Clicked buttons (l ++ l') f' ∧ AtStep f' k := by
    intro d
    induction d with
    | zero => intro l f h ha _; exact ⟨[], f, by rw [List.append_nil]; exact h, ha⟩
    | succ d ih =>
      intro l f h ha hd
      have hc : f.click buttons (.previous (k + d + 1)) = some (f.previous (k + d + 1)) := by
        rw [FormState.click, if_pos ⟨(ha.shown _).2 rfl, (hb.2 _ (by omega)).2.2 (by omega)⟩]
      obtain ⟨l', f', h1, h2⟩ := ih _ _ (.click h hc) (atStep_previous ha) (by omega)
      exact ⟨.previous (k + d + 1) :: l', f', by rw [List.append_assoc] at h1; exact h1, h2⟩
  by_cases hjk : j ≤ k
  · obtain ⟨l', f', h1, h2⟩ := up (k - j) j l f h ha (by omega)
    exact ⟨l', f', h1, by rw [show j + (k - j) = k by omega] at h2; exact h2⟩
  · exact down (j - k) l f h (by rw [show k + (j - k) = j by omega]; exact ha) (by omega)

/-- Two steps forward and one back. -/
example : ∃ f, Clicked (formSteps (tokens (rootPage []))) [.next 0, .next 1, .previous 2] f ∧ AtStep f 1 := by
  have hb : Buttons 4 (formSteps (tokens (rootPage []))) := C97_buttons []
  have h1 := atStep_next (n := 4) atStep_start (by decide)
  have h2 := atStep_next (n := 4) h1 (by decide)
  have c1 : FormState.start.click (formSteps (tokens (rootPage []))) (.next 0) = some (FormState.start.next 4 0) := by
    rw [FormState.click, if_pos ⟨rfl, (hb.2 0 (by decide)).1.2 (by decide)⟩, hb.1]
  have c2 : (FormState.start.next 4 0).click (formSteps (tokens (rootPage []))) (.next 1) = some ((FormState.start.next 4 0).next 4 1) := by
    rw [FormState.click, if_pos ⟨rfl, (hb.2 1 (by decide)).1.2 (by decide)⟩, hb.1]
  exact ⟨_, .click (.click (.click .start c1) c2) (by rw [FormState.click, if_pos ⟨rfl, (hb.2 2 (by decide)).2.2 (by decide)⟩]), atStep_previous h2⟩

/-! ### Waiting -/

theorem populate_busy (p : StartPage) (l : List (Str × Str)) : (p.populate l).busy = p.busy ∧ (p.populate l).waiting = p.waiting := by
  obtain ⟨st, e⟩ := populate_eq p l
  rw [e]
  exact ⟨rfl, rfl⟩

theorem load_busy (p : StartPage) (r : Str) (f : Bool) :
    ((p.load r f).busy = p.busy ∧ (p.load r f).waiting = p.waiting) ∨ ((p.load r f).busy = true ∧ (p.load r f).waiting = p.waiting ++ [(r, f)]) := by
  unfold StartPage.load
  split
  · exact .inr ⟨rfl, rfl⟩
  · split
    · exact .inr ⟨rfl, rfl⟩
    · exact .inl (populate_busy p _)

/-- What an event does to the requests and to the overlay. -/
theorem step_busy {p p' : StartPage} {e : PageEvent} (hs : p.step served e = some p') :
    (fromUser e = true ∧ p'.busy = p.busy ∧ p'.waiting = p.waiting) ∨ (fromUser e = true ∧ p'.busy = true ∧ ∃ x, p'.waiting = p.waiting ++ [x]) ∨
      (∃ i r l, e = .answer i r l ∧ i < p.waiting.length ∧ p'.busy = false ∧ p'.waiting = p.waiting.eraseIdx i) ∨
      (∃ i, e = .fail i ∧ i < p.waiting.length ∧ p' = { p with waiting := p.waiting.eraseIdx i }) := by
  cases e with
  | repo r =>
    unfold StartPage.step at hs
    dsimp only at hs
    split at hs
    · obtain rfl := Option.some.inj hs
      rcases load_busy { p with repo := some r, shownRepo := r, store := setItem p.store keyRepo r } r false with h | h
      · exact .inl ⟨rfl, h⟩
      · exact .inr (.inl ⟨rfl, h.1, _, h.2⟩)
    · nomatch hs
  | first v =>
    unfold StartPage.step StartPage.setFirst at hs
    dsimp only at hs
    split at hs
    · obtain rfl := Option.some.inj hs
      exact .inl ⟨rfl, rfl, rfl⟩
    · nomatch hs
  | second v =>
    unfold StartPage.step StartPage.setSecond at hs
    dsimp only at hs
    split at hs
    · obtain rfl := Option.some.inj hs
      exact .inl ⟨rfl, rfl, rfl⟩
    · nomatch hs
  | fetchFirst =>
    obtain rfl := Option.some.inj hs
    cases hr : p.repo with
    | none => exact .inl ⟨rfl, rfl, rfl⟩
    | some r =>
      rcases load_busy p r true with h | h
      · exact .inl ⟨rfl, h⟩
      · exact .inr (.inl ⟨rfl, h.1, _, h.2⟩)
  | fetchSecond =>
    obtain rfl := Option.some.inj hs
    exact .inl ⟨rfl, rfl, rfl⟩
  | answer i r list =>
    unfold StartPage.step at hs
    dsimp only at hs
    split at hs
    · next hi =>
      split at hs
      · obtain rfl := Option.some.inj hs
        obtain ⟨h1, h2⟩ := populate_busy { p with waiting := p.waiting.eraseIdx i, branches := setKey r list p.branches, busy := false } list
        exact .inr (.inr (.inl ⟨i, r, list, rfl, (List.getElem?_eq_some_iff.1 hi).1, h1, h2⟩))
      · nomatch hs
    · nomatch hs
  | fail i =>
    unfold StartPage.step at hs
    dsimp only at hs
    split at hs
    · next hi =>
      obtain rfl := Option.some.inj hs
      exact .inr (.inr (.inr ⟨i, rfl, hi, rfl⟩))
    · nomatch hs

/-- **C97.** Whatever the user does: as long as no request fails, the page shows that it is waiting only if it waits for an answer.  So it stops once everything has been
answered. -/
theorem C97_shown {tr : List PageEvent} {p : StartPage} (h : Visit served store tr p) (hf : ∀ i, .fail i ∉ tr) (hb : p.busy = true) : p.waiting ≠ [] := by
  induction h with
  | loaded => nomatch hb
  | @step tr p e p' _ hs ih =>
    have ih := ih fun i hi => hf i (List.mem_append_left _ hi)
    rcases step_busy hs with ⟨-, h1, h2⟩ | ⟨-, -, x, h2⟩ | ⟨i, r, l, rfl, -, h1, -⟩ | ⟨i, rfl, -, -⟩
    · rw [h2]; exact ih (h1 ▸ hb)
    · rw [h2]; simp
    · rw [h1] at hb; nomatch hb
    · exact absurd (by simp) (hf i)

/-- What a user who waits sees: the page is waiting for one answer, or for none. -/
theorem waits_inv {tr : List PageEvent} {p : StartPage} (h : Waits served store tr p) (hf : ∀ i, .fail i ∉ tr) :
    Patient served store tr p ∧ ((p.busy = false ∧ p.waiting = []) ∨ (p.busy = true ∧ ∃ x, p.waiting = [x])) := by
  induction h with
  | loaded => exact ⟨.loaded, .inl ⟨rfl, rfl⟩⟩
  | @step tr p e p' _ hu hs ih =>
    obtain ⟨hp, ih⟩ := ih fun i hi => hf i (List.mem_append_left _ hi)
    have hw : fromUser e = true → p.waiting = [] := by
      intro h
      rcases ih with ih | ih
      · exact ih.2
      · rw [hu h] at ih; nomatch ih.1
    constructor
    · cases e with
      | repo r => exact .repo hp (hw rfl) hs
      | first v => exact .first hp hs
      | second v => exact .second hp hs
      | fetchFirst => exact .fetch hp (hw rfl) hs
      | fetchSecond => exact .idle hp hs
      | answer i r l => exact .answer hp hs
      | fail i => exact absurd (by simp) (hf i)
    · rcases step_busy hs with ⟨h0, h1, h2⟩ | ⟨h0, h1, x, h2⟩ | ⟨i, r, l, rfl, hi, h1, h2⟩ | ⟨i, rfl, -, -⟩
      · rw [h1, h2]; exact ih
      · rw [h1, h2, hw h0]; exact .inr ⟨rfl, x, rfl⟩
      · left
        refine ⟨h1, ?_⟩
        rw [h2]
        rcases ih with ih | ⟨-, x, ih⟩
        · rw [ih.2]; rfl
        · rw [ih] at hi ⊢
          obtain rfl : i = 0 := by simp at hi; exact hi
          rfl
      · exact absurd (by simp) (hf i)

/-- **C97.** If the user does nothing while the page shows that it is waiting, and no request fails, then it shows this exactly while it waits for an answer, of which
there is never more than one. -/
theorem C97_waits {tr : List PageEvent} {p : StartPage} (h : Waits served store tr p) (hf : ∀ i, .fail i ∉ tr) :
    (p.busy = true ↔ p.waiting ≠ []) ∧ p.waiting.length ≤ 1 := by
  rcases (waits_inv h hf).2 with ⟨h1, h2⟩ | ⟨h1, x, h2⟩ <;> rw [h1, h2] <;> simp

/-- **C97.** For such users the revisions on offer, whenever the page does not show that it is waiting, are those that the server listed last for the selected
repository: the confusion of `C83_race` cannot happen. -/
theorem C97_options {tr : List PageEvent} {p : StartPage} (h : Waits served store tr p) (hf : ∀ i, .fail i ∉ tr) (hb : p.busy = false) {r : Str}
    (hr : p.repo = some r) : ∃ list, LastAnswer tr r list ∧ p.options = list.map Prod.fst ∧ p.count = some list.length := by
  obtain ⟨h1, h2⟩ := waits_inv h hf
  refine C83_options h1 ?_ hr
  rcases h2 with h2 | h2
  · exact h2.2
  · rw [hb] at h2; nomatch h2.1

/-- **C97, the negative half.** After a request has failed the page shows for ever that it is waiting: for users who wait then, nothing can happen any more. -/
theorem C97_false_failed {tr : List PageEvent} {p p' : StartPage} {i : Nat} (h : Waits served store tr p) (hf : ∀ i, .fail i ∉ tr)
    (hs : p.step served (.fail i) = some p') :
    Waits served store (tr ++ [.fail i]) p' ∧ p'.busy = true ∧ p'.waiting = [] ∧ ∀ e, (fromUser e = true → p'.busy = false) → p'.step served e = none := by
  have hw : p'.busy = true ∧ p'.waiting = [] := by
    rcases step_busy hs with ⟨h0, -⟩ | ⟨h0, -⟩ | ⟨_, _, _, h0, -⟩ | ⟨j, h0, hj, rfl⟩
    · nomatch h0
    · nomatch h0
    · nomatch h0
    · rcases (waits_inv h hf).2 with ⟨-, h2⟩ | ⟨h1, x, h2⟩
      · rw [h2] at hj; nomatch hj
      · refine ⟨h1, ?_⟩
        show p.waiting.eraseIdx j = []
        rw [h2] at hj ⊢
        obtain rfl : j = 0 := by simp at hj; exact hj
        rfl
  refine ⟨.step h nofun hs, hw.1, hw.2, fun e he => ?_⟩
  rw [hw.1] at he
  cases e with
  | answer i r l => unfold StartPage.step; rw [hw.2]; rfl
  | fail i => unfold StartPage.step; rw [hw.2]; rfl
  | _ => nomatch he rfl

/-- **C97, the negative half.** Users who do not wait can make the page stop showing that it is waiting while the list of the selected repository is still on its way. -/
theorem C97_false_hidden : ∃ tr p, Visit exServed (fun _ => none) tr p ∧ (∀ i, .fail i ∉ tr) ∧ p.busy = false ∧ p.repo = some (str% "polkadot-sdk") ∧
    p.waiting = [(str% "polkadot-sdk", false)] :=
  ⟨[.repo (str% "cumulus"), .repo (str% "polkadot-sdk"), .answer 0 (str% "cumulus") exCumulus], _, .step (.step (.step .loaded rfl) rfl) rfl,
    fun i => by simp, rfl, rfl, rfl⟩

/-- **C97, the negative half.** The button compares what is selected, whatever the summary before it says; and the fields of the summary, which look as if they could not
be changed, are ordinary text fields: nothing but their class says `disabled`. -/
theorem C97_false_summary (repos : List Str) : (∀ (p : StartPage) a b c, { p with shownRepo := a, shownFirst := b, shownSecond := c }.compare = p.compare) ∧
    ∀ id ∈ [str% "selectedRepo", str% "selectedFirst", str% "selectedSecond"],
      Token.start (str% "input") [(str% "type", str% "text"), (str% "class", str% "disabled"), (str% "id", id)] ∈ tokens (rootPage repos) := by
  refine ⟨fun _ _ _ _ => rfl, fun id hid => ?_⟩
  rw [root_tokens, whole_tokens rootBottom_tokens]
  refine List.mem_append_right _ (List.mem_append_right _ ?_)
  revert id
  decide +kernel

/-! ### Examples -/

/-- A user who selects a repository, waits, fetches and waits again. -/
example : ∃ p, Waits exServed (fun _ => none) [.repo (str% "polkadot-sdk"), .answer 0 (str% "polkadot-sdk") exCumulus, .fetchFirst, .answer 0 (str% "polkadot-sdk") exSdk] p ∧
    p.busy = false ∧ p.repo = some (str% "polkadot-sdk") ∧ p.options = exSdk.map Prod.fst :=
  ⟨_, .step (.step (.step (.step .loaded (fun _ => rfl) rfl) (by intro h; cases h) rfl) (fun _ => rfl) rfl) (by intro h; cases h) rfl, rfl, rfl, rfl⟩

/-- … and while waiting. -/
example : ∃ p, Waits exServed (fun _ => none) [.repo (str% "polkadot-sdk")] p ∧ p.busy = true ∧ p.step exServed (.fail 0) ≠ none :=
  ⟨_, .step .loaded (fun _ => rfl) rfl, rfl, by simp [StartPage.step, StartPage.load, StartPage.loaded]⟩

end Swc
