import Verif.Spec.StartPage
import Verif.Props.Query

/-! C83: the start page as a machine driven by the user and by the answers of the server. -/

namespace Swc

open Spec

variable {served : List Str} {store : Str → Option Str}

/-! ### The selected revisions -/

/-- Nothing that the local storage remembers is ever found in a received list. -/
theorem wanted_eq (remembered : Option Str) (list : List (Str × Str)) : wanted remembered list = str% "master" := by
  unfold wanted
  cases remembered with
  | none => rfl
  | some s =>
    have : jsIncludes (list.map fun b => .pair b.1 b.2) (.str s) = false := by
      unfold jsIncludes
      rw [Bool.eq_false_iff]
      intro h
      obtain ⟨b, _, hb⟩ := List.mem_map.1 (List.contains_iff_mem.1 h)
      cases hb
    simp only [this]
    rfl

/-- Filling the lists. -/
theorem populate_eq (p : StartPage) (list : List (Str × Str)) : ∃ st, p.populate list = { p with
    options := list.map Prod.fst, count := some list.length, first := masterOf (list.map Prod.fst), second := masterOf (list.map Prod.fst),
    shownFirst := if str% "master" ∈ list.map Prod.fst then str% "master" else p.shownFirst,
    shownSecond := if str% "master" ∈ list.map Prod.fst then str% "master" else p.shownSecond, store := st } := by
  unfold StartPage.populate
  simp only [wanted_eq]
  unfold StartPage.setFirst StartPage.setSecond masterOf
  by_cases h : str% "master" ∈ list.map Prod.fst
  · simp only [h, if_true]
    exact ⟨_, rfl⟩
  · simp only [h, if_false]
    exact ⟨_, rfl⟩

/-- What holds on the page at any time. -/
structure Coherent (served : List Str) (p : StartPage) : Prop where
  first : ∀ v, p.first = some v → v ∈ p.options ∧ p.shownFirst = v
  second : ∀ v, p.second = some v → v ∈ p.options ∧ p.shownSecond = v
  repo : ∀ r, p.repo = some r → r ∈ served ∧ p.shownRepo = r

theorem coherent_populate {p : StartPage} (h : ∀ r, p.repo = some r → r ∈ served ∧ p.shownRepo = r) (list : List (Str × Str)) :
    Coherent served (p.populate list) := by
  obtain ⟨st, e⟩ := populate_eq p list
  rw [e]
  refine ⟨?_, ?_, h⟩ <;>
  · intro v hv
    dsimp only at hv ⊢
    unfold masterOf at hv
    split at hv
    · rename_i hm
      obtain rfl := Option.some.inj hv
      exact ⟨hm, if_pos hm⟩
    · nomatch hv

theorem coherent_load {p : StartPage} (h : Coherent served p) (r : Str) (f : Bool) : Coherent served (p.load r f) := by
  unfold StartPage.load
  split
  · exact ⟨h.first, h.second, h.repo⟩
  · split
    · exact ⟨h.first, h.second, h.repo⟩
    · exact coherent_populate h.repo _

theorem coherent_step {p p' : StartPage} {e : PageEvent} (h : Coherent served p) (hs : p.step served e = some p') : Coherent served p' := by
  cases e with
  | repo r =>
    unfold StartPage.step at hs
    dsimp only at hs
    split at hs
    · rename_i hr
      obtain rfl := Option.some.inj hs
      refine coherent_load (p := { p with repo := some r, shownRepo := r, store := setItem p.store keyRepo r }) ⟨h.first, h.second, fun r' hr' => ?_⟩ r false
      obtain rfl := Option.some.inj hr'
      exact ⟨hr, rfl⟩
    · nomatch hs
  | first v =>
    unfold StartPage.step at hs
    dsimp only at hs
    split at hs
    · rename_i hv
      obtain rfl := Option.some.inj hs
      unfold StartPage.setFirst
      rw [if_pos hv]
      refine ⟨fun w hw => ?_, h.second, h.repo⟩
      obtain rfl := Option.some.inj hw
      exact ⟨hv, rfl⟩
    · nomatch hs
  | second v =>
    unfold StartPage.step at hs
    dsimp only at hs
    split at hs
    · rename_i hv
      obtain rfl := Option.some.inj hs
      unfold StartPage.setSecond
      rw [if_pos hv]
      refine ⟨h.first, fun w hw => ?_, h.repo⟩
      obtain rfl := Option.some.inj hw
      exact ⟨hv, rfl⟩
    · nomatch hs
  | fetchFirst =>
    obtain rfl := Option.some.inj hs
    split
    · exact h
    · exact coherent_load h _ _
  | fetchSecond =>
    obtain rfl := Option.some.inj hs
    exact h
  | answer i r list =>
    unfold StartPage.step at hs
    dsimp only at hs
    split at hs
    · split at hs
      · obtain rfl := Option.some.inj hs
        exact coherent_populate (p := { p with waiting := p.waiting.eraseIdx i, branches := setKey r list p.branches, busy := false }) h.repo _
      · nomatch hs
    · nomatch hs
  | fail i =>
    unfold StartPage.step at hs
    dsimp only at hs
    split at hs
    · obtain rfl := Option.some.inj hs
      exact ⟨h.first, h.second, h.repo⟩
    · nomatch hs

theorem coherent_visit {tr : List PageEvent} {p : StartPage} (h : Visit served store tr p) : Coherent served p := by
  induction h with
  | loaded => exact ⟨nofun, nofun, nofun⟩
  | step _ hs ih => exact coherent_step ih hs

/-- Loading changes neither the selected repository nor its name in the summary. -/
theorem load_repo (p : StartPage) (r : Str) (f : Bool) : (p.load r f).repo = p.repo := by
  unfold StartPage.load
  split
  · rfl
  · split
    · rfl
    · rename_i l _ _
      obtain ⟨st, e⟩ := populate_eq p l
      rw [e]

theorem step_repo {p p' : StartPage} {e : PageEvent} (hs : p.step served e = some p') :
    (∃ r, e = .repo r ∧ p'.repo = some r) ∨ ((∀ r, e ≠ .repo r) ∧ p'.repo = p.repo) := by
  cases e with
  | repo r =>
    unfold StartPage.step at hs
    dsimp only at hs
    split at hs
    · obtain rfl := Option.some.inj hs
      exact .inl ⟨r, rfl, load_repo _ _ _⟩
    · nomatch hs
  | first v =>
    unfold StartPage.step StartPage.setFirst at hs
    dsimp only at hs
    split at hs
    · obtain rfl := Option.some.inj hs
      exact .inr ⟨nofun, rfl⟩
    · nomatch hs
  | second v =>
    unfold StartPage.step StartPage.setSecond at hs
    dsimp only at hs
    split at hs
    · obtain rfl := Option.some.inj hs
      exact .inr ⟨nofun, rfl⟩
    · nomatch hs
  | fetchFirst =>
    obtain rfl := Option.some.inj hs
    refine .inr ⟨nofun, ?_⟩
    split
    · rfl
    · exact load_repo _ _ _
  | fetchSecond =>
    obtain rfl := Option.some.inj hs
    exact .inr ⟨nofun, rfl⟩
  | answer i r list =>
    unfold StartPage.step at hs
    dsimp only at hs
    split at hs
    · split at hs
      · obtain rfl := Option.some.inj hs
        refine .inr ⟨nofun, ?_⟩
        obtain ⟨st, e⟩ := populate_eq { p with waiting := p.waiting.eraseIdx i, branches := setKey r list p.branches, busy := false } list
        rw [e]
      · nomatch hs
    · nomatch hs
  | fail i =>
    unfold StartPage.step at hs
    dsimp only at hs
    split at hs
    · obtain rfl := Option.some.inj hs
      exact .inr ⟨nofun, rfl⟩
    · nomatch hs

theorem visit_chosen {tr : List PageEvent} {p : StartPage} (h : Visit served store tr p) (r : Str) (hr : p.repo = some r) : Chosen tr r := by
  induction h with
  | loaded => nomatch hr
  | step _ hs ih =>
    rcases step_repo hs with ⟨r', rfl, h'⟩ | ⟨he, h'⟩
    · rw [hr] at h'
      obtain rfl := Option.some.inj h'
      exact .here
    · exact .later (ih (h' ▸ hr)) he

/-- C83: what is selected is what the summary says and what is offered, and the repository is the one the user selected last. -/
theorem C83_selected {tr : List PageEvent} {p : StartPage} (h : Visit served store tr p) :
    (∀ v, p.first = some v → v ∈ p.options ∧ p.shownFirst = v) ∧ (∀ v, p.second = some v → v ∈ p.options ∧ p.shownSecond = v) ∧
      ∀ r, p.repo = some r → Chosen tr r ∧ r ∈ served ∧ p.shownRepo = r :=
  ⟨(coherent_visit h).first, (coherent_visit h).second, fun r hr => ⟨visit_chosen h r hr, (coherent_visit h).repo r hr⟩⟩

/-- C83: if a repository with a preset and two revisions are selected, the button compares what the summary says: the server understands its query as
the comparison of these revisions of this repository. -/
theorem C83_compare (u : Utf8Lossy) (ent : Entities) {tr : List PageEvent} {p : StartPage} (h : Visit served store tr p)
    {r f s pattern : Str} (hr : p.repo = some r) (hf : p.first = some f) (hs : p.second = some s) (hp : pathPresets.lookup r = some pattern)
    (h1 : UrlSafe f) (h2 : UrlSafe s) (p1 : '+' ∉ f) (p2 : '+' ∉ s) :
    p.shownRepo = r ∧ p.shownFirst = f ∧ p.shownSecond = s ∧ ∃ q, p.compare = some q ∧ requestArgs u ent q = some
      { old := f, new := s, repo := r, pathPattern := pattern, extrinsic := none, pallet := none, ignoreErrors := true, threshold := 10, unit := .time,
        gitPull := none, method := .asymptotic } := by
  obtain ⟨a, b, c⟩ := C83_selected h
  refine ⟨(c r hr).2.2, (a f hf).2, (b s hs).2, ?_⟩
  obtain ⟨q, h3, h4⟩ := C71_start_page_exact u ent hp h1 h2 p1 p2
  exact ⟨q, by rw [StartPage.compare, hr, hf, hs]; exact h3, h4⟩

/-! ### The lists -/

theorem lookup_setKey {α : Type} (k : Str) (v : α) (l : List (Str × α)) (r : Str) : (setKey k v l).lookup r = if r = k then some v else l.lookup r := by
  unfold setKey
  rw [List.lookup_cons]
  by_cases h : r = k
  · rw [if_pos h, h, beq_self_eq_true]
  · rw [if_neg h, beq_false_of_ne h]
    dsimp only
    induction l with
    | nil => rfl
    | cons p l ih =>
      rw [List.filter_cons]
      by_cases hp : p.1 = k
      · rw [if_neg (by simpa using hp), ih, List.lookup_cons, beq_false_of_ne (by rw [hp]; exact h)]
      · rw [if_pos (by simpa using hp), List.lookup_cons, List.lookup_cons, ih]

theorem load_branches (p : StartPage) (r : Str) (f : Bool) : (p.load r f).branches = p.branches := by
  unfold StartPage.load
  split
  · rfl
  · split
    · rfl
    · rename_i l _ _
      obtain ⟨st, e⟩ := populate_eq p l
      rw [e]

theorem lastAnswer_other {tr : List PageEvent} {e : PageEvent} {r : Str} (he : ∀ i l, e ≠ .answer i r l) (list : List (Str × Str)) :
    LastAnswer (tr ++ [e]) r list ↔ LastAnswer tr r list := by
  constructor
  · rintro ⟨pre, i, post, h, hn⟩
    rcases List.eq_nil_or_concat post with rfl | ⟨post', x, rfl⟩
    · have := (List.append_inj' h rfl).2
      exact absurd (List.cons.inj this).1 (he _ _)
    · rw [List.concat_eq_append, ← List.cons_append, ← List.append_assoc] at h
      have := List.append_inj' h rfl
      exact ⟨pre, i, post', this.1, fun j l hm => hn j l (by rw [List.concat_eq_append]; exact List.mem_append_left _ hm)⟩
  · rintro ⟨pre, i, post, rfl, hn⟩
    refine ⟨pre, i, post ++ [e], by simp, fun j l hm => ?_⟩
    rcases List.mem_append.1 hm with hm | hm
    · exact hn j l hm
    · exact he j l (List.mem_singleton.1 hm).symm

theorem lastAnswer_this {tr : List PageEvent} {i : Nat} {r : Str} {l list : List (Str × Str)} : LastAnswer (tr ++ [.answer i r l]) r list ↔ list = l := by
  constructor
  · rintro ⟨pre, j, post, h, hn⟩
    rcases List.eq_nil_or_concat post with rfl | ⟨post', x, rfl⟩
    · have := (List.append_inj' h rfl).2
      cases this
      rfl
    · rw [List.concat_eq_append, ← List.cons_append, ← List.append_assoc] at h
      have := (List.append_inj' h rfl).2
      obtain rfl := (List.cons.inj this).1
      exact absurd (by simp) (hn i l)
  · rintro rfl
    exact ⟨tr, i, [], rfl, fun _ _ => by simp⟩

/-- The script knows exactly the last list of every repository. -/
theorem branches_visit {tr : List PageEvent} {p : StartPage} (h : Visit served store tr p) (r : Str) (list : List (Str × Str)) :
    p.branches.lookup r = some list ↔ LastAnswer tr r list := by
  induction h with
  | loaded =>
    refine ⟨nofun, ?_⟩
    rintro ⟨pre, i, post, h, _⟩
    cases pre <;> cases h
  | @step tr p e p' _ hs ih =>
    cases e with
    | answer i r' l =>
      unfold StartPage.step at hs
      dsimp only at hs
      split at hs
      · split at hs
        · obtain rfl := Option.some.inj hs
          obtain ⟨st, e⟩ := populate_eq { p with waiting := p.waiting.eraseIdx i, branches := setKey r' l p.branches, busy := false } l
          rw [e]
          dsimp only
          rw [lookup_setKey]
          by_cases hr : r = r'
          · rw [if_pos hr, hr, lastAnswer_this]
            exact ⟨fun h => (Option.some.inj h).symm, fun h => congrArg some h.symm⟩
          · rw [if_neg hr, ih, lastAnswer_other]
            intro j l' hc
            cases hc
            exact hr rfl
        · nomatch hs
      · nomatch hs
    | repo r' =>
      unfold StartPage.step at hs
      dsimp only at hs
      split at hs
      · obtain rfl := Option.some.inj hs
        rw [load_branches, ih, lastAnswer_other (fun _ _ h => by cases h)]
      · nomatch hs
    | first v =>
      unfold StartPage.step StartPage.setFirst at hs
      dsimp only at hs
      rw [lastAnswer_other (fun _ _ h => by cases h)]
      split at hs
      · obtain rfl := Option.some.inj hs
        exact ih
      · nomatch hs
    | second v =>
      unfold StartPage.step StartPage.setSecond at hs
      dsimp only at hs
      rw [lastAnswer_other (fun _ _ h => by cases h)]
      split at hs
      · obtain rfl := Option.some.inj hs
        exact ih
      · nomatch hs
    | fetchFirst =>
      obtain rfl := Option.some.inj hs
      rw [lastAnswer_other (fun _ _ h => by cases h)]
      split
      · exact ih
      · rw [load_branches]
        exact ih
    | fetchSecond =>
      obtain rfl := Option.some.inj hs
      rw [lastAnswer_other (fun _ _ h => by cases h)]
      exact ih
    | fail i =>
      unfold StartPage.step at hs
      dsimp only at hs
      rw [lastAnswer_other (fun _ _ h => by cases h)]
      split at hs
      · obtain rfl := Option.some.inj hs
        exact ih
      · nomatch hs

theorem visit_of_patient {tr : List PageEvent} {p : StartPage} (h : Patient served store tr p) : Visit served store tr p := by
  induction h with
  | loaded => exact .loaded
  | repo _ _ hs ih => exact .step ih hs
  | fetch _ _ hs ih => exact .step ih hs
  | idle _ hs ih => exact .step ih hs
  | answer _ hs ih => exact .step ih hs
  | first _ hs ih => exact .step ih hs
  | second _ hs ih => exact .step ih hs

/-- The offered revisions are those of the selected repository, or its list is on the way. -/
inductive Settled (p : StartPage) : Prop
  | empty (h : p.waiting = []) (hr : p.repo = none)
  | shown (h : p.waiting = []) (r : Str) (list : List (Str × Str)) (hr : p.repo = some r) (hb : p.branches.lookup r = some list)
      (ho : p.options = list.map Prod.fst) (hc : p.count = some list.length)
  | asked (r : Str) (f : Bool) (h : p.waiting = [(r, f)]) (hr : p.repo = some r)

theorem settled_load {p : StartPage} (hw : p.waiting = []) {r : Str} (hr : p.repo = some r) (f : Bool) : Settled (p.load r f) := by
  unfold StartPage.load
  split
  · exact .asked r f (by rw [hw]; rfl) hr
  · rename_i l hl
    split
    · exact .asked r f (by rw [hw]; rfl) hr
    · obtain ⟨st, e⟩ := populate_eq p l
      rw [e]
      exact .shown hw r l hr hl rfl rfl

theorem settled_patient {tr : List PageEvent} {p : StartPage} (h : Patient served store tr p) : Settled p := by
  induction h with
  | loaded => exact .empty rfl rfl
  | @repo tr p r p' _ hw hs _ =>
    unfold StartPage.step at hs
    dsimp only at hs
    split at hs
    · obtain rfl := Option.some.inj hs
      exact settled_load (p := { p with repo := some r, shownRepo := r, store := setItem p.store keyRepo r }) hw rfl false
    · nomatch hs
  | @fetch tr p p' _ hw hs ih =>
    obtain rfl := Option.some.inj hs
    split
    · exact ih
    · rename_i r hr
      exact settled_load hw hr true
  | idle _ hs ih =>
    obtain rfl := Option.some.inj hs
    exact ih
  | @answer tr p i r l p' _ hs ih =>
    unfold StartPage.step at hs
    dsimp only at hs
    split at hs
    · rename_i r' f hi
      split at hs
      · rename_i hrr
        obtain rfl := Option.some.inj hs
        cases ih with
        | empty hw _ => rw [hw] at hi; nomatch hi
        | shown hw => rw [hw] at hi; nomatch hi
        | asked r0 f0 hw hr =>
          rw [hw] at hi
          cases i with
          | succ i => nomatch hi
          | zero =>
            cases Option.some.inj hi
            obtain ⟨st, e⟩ := populate_eq { p with waiting := p.waiting.eraseIdx 0, branches := setKey r l p.branches, busy := false } l
            rw [e]
            refine .shown (by rw [hw]; rfl) r l (by rw [hrr]; exact hr) ?_ rfl rfl
            dsimp only
            rw [lookup_setKey, if_pos rfl]
      · nomatch hs
    · nomatch hs
  | first _ hs ih =>
    unfold StartPage.step StartPage.setFirst at hs
    dsimp only at hs
    split at hs
    · obtain rfl := Option.some.inj hs
      cases ih with
      | empty h hr => exact .empty h hr
      | shown h r l hr hb ho hc => exact .shown h r l hr hb ho hc
      | asked r f h hr => exact .asked r f h hr
    · nomatch hs
  | second _ hs ih =>
    unfold StartPage.step StartPage.setSecond at hs
    dsimp only at hs
    split at hs
    · obtain rfl := Option.some.inj hs
      cases ih with
      | empty h hr => exact .empty h hr
      | shown h r l hr hb ho hc => exact .shown h r l hr hb ho hc
      | asked r f h hr => exact .asked r f h hr
    · nomatch hs

/-- C83: if the user waits for the lists and no request fails, then, whenever no request is open, the page offers exactly what the server listed last
for the selected repository. -/
theorem C83_options {tr : List PageEvent} {p : StartPage} (h : Patient served store tr p) (hw : p.waiting = []) {r : Str} (hr : p.repo = some r) :
    ∃ list, LastAnswer tr r list ∧ p.options = list.map Prod.fst ∧ p.count = some list.length := by
  cases settled_patient h with
  | empty _ h' => rw [hr] at h'; nomatch h'
  | shown _ r' l hr' hb ho hc =>
    rw [hr] at hr'
    obtain rfl := Option.some.inj hr'
    exact ⟨l, (branches_visit (visit_of_patient h) r l).1 hb, ho, hc⟩
  | asked _ _ h' => rw [hw] at h'; nomatch h'

/-- C83: an answer of the server selects `master` twice, or nothing if it is not in the list. -/
theorem C83_answer {p p' : StartPage} {i : Nat} {r : Str} {list : List (Str × Str)} (hs : p.step served (.answer i r list) = some p') :
    p'.options = list.map Prod.fst ∧ p'.first = masterOf (list.map Prod.fst) ∧ p'.second = masterOf (list.map Prod.fst) := by
  unfold StartPage.step at hs
  dsimp only at hs
  split at hs
  · split at hs
    · obtain rfl := Option.some.inj hs
      obtain ⟨st, e⟩ := populate_eq { p with waiting := p.waiting.eraseIdx i, branches := setKey r list p.branches, busy := false } list
      rw [e]
      exact ⟨rfl, rfl, rfl⟩
    · nomatch hs
  · nomatch hs

/-! ### Findings -/

/-- The same page with another local storage. -/
abbrev StartPage.with (p : StartPage) (st : Str → Option Str) : StartPage := { p with store := st }

theorem populate_with (p : StartPage) (st : Str → Option Str) (l : List (Str × Str)) : ∃ st', (p.with st).populate l = (p.populate l).with st' := by
  obtain ⟨a, ha⟩ := populate_eq (p.with st) l
  obtain ⟨b, hb⟩ := populate_eq p l
  exact ⟨a, by rw [ha, hb]⟩

theorem load_with (p : StartPage) (st : Str → Option Str) (r : Str) (f : Bool) : ∃ st', (p.with st).load r f = (p.load r f).with st' := by
  unfold StartPage.load
  dsimp only
  split
  · exact ⟨st, rfl⟩
  · split
    · exact ⟨st, rfl⟩
    · exact populate_with p st _

theorem step_with (p : StartPage) (st : Str → Option Str) (e : PageEvent) {p' : StartPage} (h : p.step served e = some p') :
    ∃ st', (p.with st).step served e = some (p'.with st') := by
  cases e with
  | repo r =>
    unfold StartPage.step at h ⊢
    dsimp only at h ⊢
    split at h
    · rename_i hr
      rw [if_pos hr]
      obtain rfl := Option.some.inj h
      obtain ⟨st', e⟩ := load_with { p with repo := some r, shownRepo := r, store := setItem p.store keyRepo r } (setItem st keyRepo r) r false
      exact ⟨st', congrArg some e⟩
    · nomatch h
  | first v =>
    unfold StartPage.step StartPage.setFirst at h ⊢
    dsimp only at h ⊢
    split at h
    · rename_i hv
      simp only [if_pos hv] at h ⊢
      obtain rfl := Option.some.inj h
      exact ⟨_, rfl⟩
    · nomatch h
  | second v =>
    unfold StartPage.step StartPage.setSecond at h ⊢
    dsimp only at h ⊢
    split at h
    · rename_i hv
      simp only [if_pos hv] at h ⊢
      obtain rfl := Option.some.inj h
      exact ⟨_, rfl⟩
    · nomatch h
  | fetchFirst =>
    obtain rfl := Option.some.inj h
    unfold StartPage.step
    dsimp only
    split
    · exact ⟨st, rfl⟩
    · obtain ⟨st', e⟩ := load_with p st _ true
      exact ⟨st', congrArg some e⟩
  | fetchSecond =>
    obtain rfl := Option.some.inj h
    exact ⟨st, rfl⟩
  | answer i r list =>
    unfold StartPage.step at h ⊢
    dsimp only at h ⊢
    split at h
    · split at h
      · rename_i hr
        rw [if_pos hr]
        obtain rfl := Option.some.inj h
        obtain ⟨st', e⟩ := populate_with { p with waiting := p.waiting.eraseIdx i, branches := setKey r list p.branches, busy := false } st list
        exact ⟨st', congrArg some e⟩
      · nomatch h
    · nomatch h
  | fail i =>
    unfold StartPage.step at h ⊢
    dsimp only at h ⊢
    split at h
    · rename_i hi
      rw [if_pos hi]
      obtain rfl := Option.some.inj h
      exact ⟨st, rfl⟩
    · nomatch h

/-- C83 (finding): what the local storage remembers of earlier visits has no effect whatsoever, although it is written and read. -/
theorem C83_forgets {tr : List PageEvent} {p : StartPage} (h : Visit served store tr p) (store' : Str → Option Str) :
    ∃ st, Visit served store' tr { p with store := st } := by
  induction h with
  | loaded => exact ⟨store', .loaded⟩
  | step _ hs ih =>
    obtain ⟨st, ih⟩ := ih
    obtain ⟨st', e⟩ := step_with _ st _ hs
    exact ⟨st', .step ih e⟩

/-- A visit, executed. -/
def visit (served : List Str) (store : Str → Option Str) : List PageEvent → Option StartPage :=
  List.foldlM (fun p e => p.step served e) (.loaded store)

theorem visit_sound {tr : List PageEvent} {p : StartPage} (h : visit served store tr = some p) : Visit served store tr p := by
  suffices H : ∀ (tr pre : List PageEvent) (p0 : StartPage), Visit served store pre p0 →
      List.foldlM (fun p e => StartPage.step served p e) p0 tr = some p → Visit served store (pre ++ tr) p from H tr [] _ .loaded h
  intro tr
  induction tr with
  | nil =>
    intro pre p0 hv h
    obtain rfl := Option.some.inj h
    rw [List.append_nil]
    exact hv
  | cons e tr ih =>
    intro pre p0 hv h
    rw [List.foldlM_cons] at h
    cases he : StartPage.step served p0 e with
    | none => rw [he] at h; nomatch h
    | some p1 =>
      rw [he] at h
      have := ih (pre ++ [e]) p1 (.step hv he) h
      rwa [List.append_assoc] at this

/-- The lists of two repositories. -/
def exSdk : List (Str × Str) := [(str% "master", str% "0123456789ab"), (str% "release", str% "ba9876543210")]
def exCumulus : List (Str × Str) := [(str% "main", str% "111111111111")]
def exServed : List Str := [str% "polkadot-sdk", str% "cumulus"]

/-- C83 (finding): the answers are not matched with the selected repository.  If the user selects another repository while a request is open and the
answer to the first request arrives last, the page offers the branches of the first repository for the second, and compares them there. -/
theorem C83_race (u : Utf8Lossy) : ∃ tr p q a, Visit exServed (fun _ => none) tr p ∧ p.waiting = [] ∧ p.repo = some (str% "polkadot-sdk") ∧
    LastAnswer tr (str% "polkadot-sdk") exSdk ∧ p.options = exCumulus.map Prod.fst ∧ p.shownRepo = str% "polkadot-sdk" ∧
    p.compare = some q ∧ parseQuery u q = some a ∧ a.repo = str% "polkadot-sdk" ∧ a.old = str% "main" ∧ str% "main" ∉ exSdk.map Prod.fst := by
  have hv : ∃ p, visit exServed (fun _ => none) [.repo (str% "cumulus"), .repo (str% "polkadot-sdk"), .answer 1 (str% "polkadot-sdk") exSdk,
      .answer 0 (str% "cumulus") exCumulus, .first (str% "main"), .second (str% "main")] = some p ∧ p.waiting = [] ∧
      p.repo = some (str% "polkadot-sdk") ∧ p.options = exCumulus.map Prod.fst ∧ p.first = some (str% "main") ∧ p.second = some (str% "main") :=
    ⟨_, rfl, rfl, rfl, rfl, rfl, rfl⟩
  obtain ⟨p, h1, h2, h3, h4, h5, h6⟩ := hv
  have hv := visit_sound h1
  obtain ⟨q, h7, h8⟩ := C71_start_page u (repo := str% "polkadot-sdk") (first := str% "main") (second := str% "main") rfl (urlSafe_of (by decide))
    (urlSafe_of (by decide))
  refine ⟨_, p, q, _, hv, h2, h3, ?_, h4, ((coherent_visit hv).repo _ h3).2, by rw [StartPage.compare, h3, h5, h6]; exact h7, h8, rfl, rfl, by decide⟩
  exact ⟨[.repo (str% "cumulus"), .repo (str% "polkadot-sdk")], 1, _, rfl, fun j l => by simp⟩

/-- C83 (finding): if the request fails, the branches of the previous repository stay on offer for the one selected now. -/
theorem C83_failed : ∃ tr p, Visit exServed (fun _ => none) tr p ∧ p.waiting = [] ∧ p.repo = some (str% "polkadot-sdk") ∧
    (∀ l, ¬ LastAnswer tr (str% "polkadot-sdk") l) ∧ p.options = exCumulus.map Prod.fst := by
  have hv : ∃ p, visit exServed (fun _ => none) [.repo (str% "cumulus"), .answer 0 (str% "cumulus") exCumulus, .repo (str% "polkadot-sdk"),
      .fail 0] = some p ∧ p.waiting = [] ∧ p.repo = some (str% "polkadot-sdk") ∧ p.options = exCumulus.map Prod.fst ∧
      p.branches.lookup (str% "polkadot-sdk") = none := ⟨_, rfl, rfl, rfl, rfl, rfl⟩
  obtain ⟨p, h1, h2, h3, h4, h5⟩ := hv
  have hv := visit_sound h1
  refine ⟨_, p, hv, h2, h3, fun l hl => ?_, h4⟩
  rw [← branches_visit hv, h5] at hl
  nomatch hl

/-- C83 (finding): without a branch `master` nothing is selected, the summary keeps naming the revision of the repository before, and the button asks
for revisions called `null`. -/
theorem C83_null (u : Utf8Lossy) : ∃ tr p q a, Patient exServed (fun _ => none) tr p ∧ p.waiting = [] ∧ p.shownRepo = str% "polkadot-sdk" ∧
    p.shownFirst = str% "master" ∧ p.first = none ∧ p.compare = some q ∧ parseQuery u q = some a ∧ a.old = str% "null" ∧ a.new = str% "null" := by
  obtain ⟨q, h7, h8⟩ := C71_start_page u (repo := str% "polkadot-sdk") (first := str% "null") (second := str% "null") rfl (urlSafe_of (by decide))
    (urlSafe_of (by decide))
  exact ⟨_, _, q, _, .answer (.repo (.answer (.repo .loaded rfl (r := str% "cumulus") rfl) (i := 0) (r := str% "cumulus") (l := exSdk) rfl) rfl
    (r := str% "polkadot-sdk") rfl) (i := 0) (r := str% "polkadot-sdk") (l := exCumulus) rfl, rfl, rfl, rfl, rfl, h7, h8, rfl, rfl⟩

/-- C83: selecting a repository asks the server for its branches, without fetching, exactly if no list was received for it during the visit;
otherwise the page asks nothing and offers the last list at once. -/
theorem C83_select {tr : List PageEvent} {p p' : StartPage} (h : Visit served store tr p) {r : Str} (hs : p.step served (.repo r) = some p') :
    ((∀ list, ¬ LastAnswer tr r list) → p'.waiting = p.waiting ++ [(r, false)] ∧ p'.options = p.options ∧ p'.first = p.first ∧ p'.second = p.second) ∧
      ∀ list, LastAnswer tr r list → p'.waiting = p.waiting ∧ p'.options = list.map Prod.fst ∧ p'.count = some list.length := by
  unfold StartPage.step at hs
  dsimp only at hs
  split at hs
  · simp only [Option.some.injEq] at hs
    subst hs
    constructor
    · intro hn
      have hb : p.branches.lookup r = none := by
        cases hb : p.branches.lookup r with
        | none => rfl
        | some list => exact absurd ((branches_visit h r list).1 hb) (hn list)
      unfold StartPage.load
      dsimp only
      rw [hb]
      exact ⟨rfl, rfl, rfl, rfl⟩
    · intro list hl
      have hb := (branches_visit h r list).2 hl
      unfold StartPage.load
      dsimp only
      rw [hb]
      dsimp only
      rw [if_neg (by decide)]
      obtain ⟨st, e⟩ := populate_eq { p with repo := some r, shownRepo := r, store := setItem p.store keyRepo r } list
      rw [e]
      exact ⟨rfl, rfl, rfl⟩
  · nomatch hs

/-- C83: the button "fetch" always asks the server to fetch the selected repository, whether its branches are known or not, and changes nothing else
on the page; without a selected repository it does nothing. -/
theorem C83_fetch {p p' : StartPage} (hs : p.step served .fetchFirst = some p') :
    (∀ r, p.repo = some r → p' = { p with waiting := p.waiting ++ [(r, true)], busy := true }) ∧ (p.repo = none → p' = p) := by
  unfold StartPage.step at hs
  simp only [Option.some.injEq] at hs
  subst hs
  constructor
  · intro r hr
    rw [hr]
    dsimp only
    unfold StartPage.load
    cases p.branches.lookup r <;> simp [hr]
  · intro hr
    rw [hr]

/-- C83: selecting a revision asks the server nothing and selects just this revision. -/
theorem C83_pick {p p' : StartPage} {v : Str} :
    (p.step served (.first v) = some p' → p'.waiting = p.waiting ∧ p'.options = p.options ∧ p'.repo = p.repo ∧ p'.first = some v ∧ p'.second = p.second) ∧
      (p.step served (.second v) = some p' → p'.waiting = p.waiting ∧ p'.options = p.options ∧ p'.repo = p.repo ∧ p'.first = p.first ∧ p'.second = some v) := by
  constructor
  · intro hs
    unfold StartPage.step at hs
    dsimp only at hs
    split at hs
    · rename_i hv
      simp only [Option.some.injEq] at hs
      subst hs
      unfold StartPage.setFirst
      rw [if_pos hv]
      exact ⟨rfl, rfl, rfl, rfl, rfl⟩
    · nomatch hs
  · intro hs
    unfold StartPage.step at hs
    dsimp only at hs
    split at hs
    · rename_i hv
      simp only [Option.some.injEq] at hs
      subst hs
      unfold StartPage.setSecond
      rw [if_pos hv]
      exact ⟨rfl, rfl, rfl, rfl, rfl⟩
    · nomatch hs

/-! ### A concrete visit -/

/-- The user selects a repository, waits, and selects two revisions. -/
example : ∃ p, Patient exServed (fun _ => some (str% "release")) [.repo (str% "polkadot-sdk"), .answer 0 (str% "polkadot-sdk") exSdk, .second (str% "release")] p ∧
    p.waiting = [] ∧ p.repo = some (str% "polkadot-sdk") ∧ p.first = some (str% "master") ∧ p.second = some (str% "release") ∧
    p.options = [str% "master", str% "release"] :=
  ⟨_, .second (.answer (.repo .loaded rfl rfl) rfl) rfl, rfl, rfl, rfl, rfl, rfl⟩

/-- The user comes back to a repository whose branches are known, and then fetches. -/
example : ∃ p p' p'', Visit exServed (fun _ => none) [.repo (str% "polkadot-sdk"), .answer 0 (str% "polkadot-sdk") exSdk, .repo (str% "cumulus"),
      .answer 0 (str% "cumulus") exCumulus] p ∧ p.options = [str% "main"] ∧
    p.step exServed (.repo (str% "polkadot-sdk")) = some p' ∧ p'.waiting = [] ∧ p'.options = [str% "master", str% "release"] ∧
    p'.step exServed .fetchFirst = some p'' ∧ p''.waiting = [(str% "polkadot-sdk", true)] :=
  ⟨_, _, _, .step (.step (.step (.step .loaded rfl) rfl) rfl) rfl, rfl, rfl, rfl, rfl, rfl, rfl⟩

end Swc
