import Verif.Props.WeightTextReport
import Verif.Props.PageTable
import Verif.Props.WebRun
import Verif.Props.Query
import Verif.Props.Sort

/-! C82: from the bytes of a request to the rows of the page that answers it, through the threads of the server, its cache, `git`, the text of the
weight files, the comparison and the templates. -/

namespace Swc

open Spec

/-- Sorting and filtering invent nothing. -/
theorem mem_finish {filter : FilterParams} {out : Res (List ExtrinsicDiff)} {diff : List ExtrinsicDiff} (h : finish filter out = .ok diff) :
    ∃ all, out = .ok all ∧ ∀ e ∈ diff, e ∈ all := by
  cases out with
  | ok all =>
    refine ⟨all, rfl, fun e he => ?_⟩
    obtain rfl : sortChanges (filterChanges all filter) = diff := Res.ok.inj h
    have := (C37_sort_changes (filterChanges all filter)).perm.mem_iff.1 he
    unfold filterChanges at this
    exact List.mem_of_mem_filter this
  | err _ => nomatch h
  | panic => nomatch h
  | diverge => nomatch h

/-- The numbers of a row are those of its entry. -/
theorem term_of_numbers {e : ExtrinsicDiff} {r : TermChange} (h : numbers e.change = some r) : e.term = some r := by
  unfold ExtrinsicDiff.term
  unfold numbers at h
  cases hk : e.change <;> rw [hk] at h <;> exact h

/-- C82: a query asks for a worst-case comparison, and the server answers it, from its cache or not.  Then the comparison was made at most ten minutes
ago with exactly the arguments that the query spells (with HTML entities decoded in three of them), both revisions were checked out for it in the
repository that the query names, and every row of the page shows an entry of which the following holds: if it is neither new nor gone and the files of that name in both checkouts are generated weight
files, then its numbers are the worst case of the numbers written in these files. -/
theorem C82_request_page {W : World} {srv : Server} {c : Config W.State} (hR : Reachable W srv c)
    {u : Utf8Lossy} {ent : Entities} {ps : List (Str × Str)} {q : Bytes} {a : CompareArgs} (hs : SpellsPairs ps q) (hq : requestArgs u ent q = some a)
    (hm : a.method = .guessWorst ∨ a.method = .exactWorst)
    {id : Nat} {diff : List ExtrinsicDiff} {cached : Bool} {t : Nat} (hl : Entry.answered id a (.ok diff) cached t ∈ c.sh.log)
    {b : Build} {version : Str} {repos : List Str} {org : Str} {page : Str}
    (hp : compareResponse b version repos (.ok a) (some org) (.ok (diff, cached)) = .ok ⟨200, textHtml, page⟩)
    (hr : BareNames repos) (h1 : Inert org) (h2 : Inert a.repo) (h3 : Inert a.old) (h4 : Inert a.new) (he : ∀ e ∈ diff, InertEntry e) :
    (∃ asked, Asks ps asked ∧ a = { asked with new := ent.decode asked.new, old := ent.decode asked.old, pathPattern := ent.decode asked.pathPattern }) ∧
    ∃ repo id' ho st fi t' G1 s1 files1 G2 s2 files2,
      srv.repos a.repo = some repo ∧ Entry.computed id' a ho st fi (.ok diff) t' ∈ c.sh.log ∧ t' ≤ t ∧ t < t' + maxAge ∧
      CheckedOut W (trim a.old) (a.gitPull ≠ some false) true st G1 s1 ∧ Listed W s1 repo (trim a.pathPattern) 6000 files1 ∧
      CheckedOut W (trim a.new) (a.gitPull ≠ some false) true s1 G2 s2 ∧ Listed W s2 repo (trim a.pathPattern) 6000 files2 ∧
      ∀ row ∈ tableRows (tokens page) (str% "sort_me"), ∃ e ∈ diff, ∃ r c0 c1 c2 c3 c4 c5 c6 c7 c8,
        numbers e.change = some r ∧ row.2 = [c0, c1, c2, c3, c4, c5, c6, c7, c8] ∧ RowShows org a e r row.1 c0 c1 c2 c3 c4 c5 c6 c7 c8 ∧
        (r.change = .changed ∨ r.change = .unchanged →
          (∀ file ∈ files1, PathStripping.repoRelative.strip repo file = .ok e.file →
            ∃ content fns, GeneratedFile (W.fs s1) file content fns ∧ srv.env.syn content = rustSyn content) →
          (∀ file ∈ files2, PathStripping.repoRelative.strip repo file = .ok e.file →
            ∃ content fns, GeneratedFile (W.fs s2) file content fns ∧ srv.env.syn content = rustSyn content) →
          ∃ file1 ∈ files1, ∃ file2 ∈ files2, ∃ content1 content2 fns1 fns2, ∃ f ∈ fns1, ∃ g ∈ fns2,
            PathStripping.repoRelative.strip repo file1 = .ok e.file ∧ PathStripping.repoRelative.strip repo file2 = .ok e.file ∧
            GeneratedFile (W.fs s1) file1 content1 fns1 ∧ GeneratedFile (W.fs s2) file2 content2 fns2 ∧ f.name = e.name ∧ g.name = e.name ∧
            (f.cost ⟨highestIn f g, 25000000, 100000000⟩ a.unit < 2 ^ 53 →
              g.cost ⟨highestIn f g, 25000000, 100000000⟩ a.unit < 2 ^ 53 → WorstChange f g a.unit r)) := by
  refine ⟨?_, ?_⟩
  · obtain ⟨asked, h, rfl⟩ := Option.map_eq_some_iff.1 hq
    exact ⟨asked, (C69_query u hs asked).1 h, rfl⟩
  obtain ⟨id', ho, st, fi, t', hcm, ht1, ht2⟩ : ∃ id' ho st fi t', Entry.computed id' a ho st fi (.ok diff) t' ∈ c.sh.log ∧ t' ≤ t ∧ t < t' + maxAge := by
    obtain ⟨pre, post, hsp⟩ := List.append_of_mem hl
    cases cached with
    | true =>
      obtain ⟨v, hv, id', ho, st, fi, t', hm', ht⟩ := C54_cached hR hsp
      obtain rfl : diff = v := Except.ok.inj hv
      exact ⟨id', ho, st, fi, t', by rw [hsp]; exact List.mem_append_left _ hm', ht⟩
    | false =>
      rcases C54_not_cached hR hsp with ⟨_, m, hm'⟩ | ⟨pre', ho, st, fi, res, hpre, ⟨v, hv, hv'⟩ | ⟨m, _, hm'⟩⟩
      · nomatch hm'
      · obtain rfl : diff = v := Except.ok.inj hv'
        exact ⟨id, ho, st, fi, t, by rw [hsp, hpre, hv]; simp, le_refl _, by unfold maxAge; omega⟩
      · nomatch hm'
  obtain ⟨path, filter, out, hrp, _, hout, hfin, _⟩ := C55_result hR hcm
  obtain ⟨all, hall, hmem⟩ := mem_finish hfin.symm
  have hrun : compareCommits (W := W) srv.build ho srv.rx srv.env path (trim a.old) (trim a.new)
        { method := a.method, unit := a.unit, ignoreErrors := a.ignoreErrors, gitPull := a.gitPull ≠ some false, offline := false,
          gitForce := true } filter (trim a.pathPattern) 6000 ⟨st, []⟩ = (.ok all, out.2) := by
    rw [← hout, ← hall]
  obtain ⟨G1, s1, files1, G2, s2, files2, c1, l1, c2, l2, hrow⟩ := C80_commits _ _ _ _ _ _ _ _ _ _ _ _ _ _ hrun hm
  have hpull : ∀ (x : Bool), (x && !false) = x := by decide
  unfold CompareParams.shouldPull at c1 c2
  rw [hpull] at c1 c2
  refine ⟨path, id', ho, st, fi, t', G1, s1, files1, G2, s2, files2, hrp, hcm, ht1, ht2, c1, l1, c2, l2, fun row hrow' => ?_⟩
  have hpage : comparePage b version repos org a diff cached = .ok page := by
    unfold compareResponse at hp
    dsimp only at hp
    cases hk : comparePage b version repos org a diff cached with
    | ok body => rw [hk] at hp; exact congrArg Res.ok (congrArg Response.body (Res.ok.inj hp))
    | err _ => rw [hk] at hp; nomatch hp
    | panic => rw [hk] at hp; nomatch hp
    | diverge => rw [hk] at hp; nomatch hp
  obtain ⟨i, hi, rfl⟩ := List.getElem_of_mem hrow'
  have hrows := C73_rows hr h1 h2 h3 h4 he hpage
  have hi' := hrows.length_eq ▸ hi
  obtain ⟨c0, c1', c2', c3, c4, c5, c6, c7, c8, hcells, hshow⟩ := hrows.get hi' hi
  obtain ⟨e, hed, hp'⟩ := List.mem_filterMap.1 (List.getElem_mem hi')
  obtain ⟨r, hr', hpe⟩ := Option.map_eq_some_iff.1 hp'
  rw [List.get_eq_getElem, ← hpe] at hshow
  exact ⟨e, hed, r, c0, c1', c2', c3, c4, c5, c6, c7, c8, hr', hcells, hshow, hrow e (hmem e hed) r (term_of_numbers hr')⟩

/-! ### A concrete request -/

/-- Text that may be put anywhere in a page. -/
def inertB (s : Str) : Bool := s.all fun c => c ≠ '<' && c ≠ '&' && c ≠ '"'

/-- All variables of an equation are such text. -/
def inertTermB : SimpleTerm → Bool
  | .var v => inertB v
  | .value _ => true
  | .scalar _ => true
  | .add l r => inertTermB l && inertTermB r
  | .mul l r => inertTermB l && inertTermB r

/-- All that a successful row inserts is such text. -/
def inertEntryB (e : ExtrinsicDiff) : Bool := inertB e.file && inertB e.name && match e.change with
  | .changed r => (r.old.all inertTermB) && (r.new.all inertTermB)
  | _ => false

theorem inertB_sound {s : Str} (h : inertB s = true) : Inert s := fun c hc => by
  have := List.all_eq_true.1 h c hc
  simpa [and_assoc] using this

theorem inertTermB_sound {t : SimpleTerm} (h : inertTermB t = true) (x : Str) (hx : Occurs x t) : Inert x := by
  induction hx with
  | here => exact inertB_sound h
  | addL _ ih => exact ih (Bool.and_eq_true_iff.1 h).1
  | addR _ ih => exact ih (Bool.and_eq_true_iff.1 h).2
  | mulL _ ih => exact ih (Bool.and_eq_true_iff.1 h).1
  | mulR _ ih => exact ih (Bool.and_eq_true_iff.1 h).2

theorem inertEntryB_sound {e : ExtrinsicDiff} (h : inertEntryB e = true) : InertEntry e := by
  unfold inertEntryB at h
  obtain ⟨h, h3⟩ := Bool.and_eq_true_iff.1 h
  obtain ⟨h1, h2⟩ := Bool.and_eq_true_iff.1 h
  cases hk : e.change with
  | changed r =>
    rw [hk] at h3
    obtain ⟨ho, hn⟩ := Bool.and_eq_true_iff.1 h3
    refine ⟨inertB_sound h1, inertB_sound h2, fun m hm => by (rw [hk] at hm; nomatch hm), fun c m hm => by (rw [hk] at hm; nomatch hm), ?_, ?_⟩
    · intro c t hc ht
      rw [hk] at hc
      obtain rfl : r = c := Option.some.inj hc
      rw [ht] at ho
      exact inertTermB_sound ho
    · intro c t hc ht
      rw [hk] at hc
      obtain rfl : r = c := Option.some.inj hc
      rw [ht] at hn
      exact inertTermB_sound hn
  | failed _ => rw [hk] at h3; cases h3
  | warning _ _ => rw [hk] at h3; cases h3

/-- What the query asks for. -/
def exAskArgs : CompareArgs :=
  { old := str% "v1", new := str% "v2", repo := str% "repo", pathPattern := str% "*", extrinsic := none, pallet := none, ignoreErrors := false,
    threshold := 0, unit := .time, gitPull := some false, method := .guessWorst }

/-- The pairs of the query. -/
def exAskPairs : List (Str × Str) :=
  [(str% "repo", str% "repo"), (str% "old", str% "v1"), (str% "new", str% "v2"), (str% "path_pattern", str% "*"),
    (str% "ignore_errors", str% "false"), (str% "threshold", str% "0"), (str% "unit", str% "weight"), (str% "git_pull", str% "false"),
    (str% "method", str% "guess-worst")]

example : requestArgs strictUtf8 ⟨id, fun _ _ => rfl⟩ (formSerialize exAskPairs) = some exAskArgs := by
  rw [requestArgs, (C69_query _ (C69_serialized _) _).2 ((C69_args _ exAskArgs).1 rfl)]
  rfl

/-- The server reads the text of the files with the reader. -/
abbrev exAskServer : Server := exServer ⟨rustSyn, asciiClass⟩

/-- The outcome of the comparison. -/
def exAskRun : Res (List ExtrinsicDiff) := ((doCompare exAskServer idOrder exAskArgs).run exGenWorld (str% "start")).1

/-- All hypotheses of `C82_request_page` are met by a server in a repository with generated files, and its page has four rows. -/
theorem C82_example : ∃ c diff page, Reachable exGenWorld exAskServer c ∧ Entry.answered 0 exAskArgs (.ok diff) false 7 ∈ c.sh.log ∧
    compareResponse .release (str% "1") [str% "repo"] (.ok exAskArgs) (some (str% "org")) (.ok (diff, false)) = .ok ⟨200, textHtml, page⟩ ∧
    (∀ e ∈ diff, InertEntry e) ∧ (tableRows (tokens page) (str% "sort_me")).length = 4 ∧ diff.map exShow = [
      ⟨str% "a.rs", str% "burn", some 5, some 5, some .unchanged, false⟩,
      ⟨str% "w.rs", str% "burn", some 5, some 5, some .unchanged, false⟩,
      ⟨str% "a.rs", str% "transfer", some 207037345000, some 209037345000, some .changed, false⟩,
      ⟨str% "w.rs", str% "transfer", some 207037345000, some 209037345000, some .changed, false⟩] := by
  have h0 : Reachable exGenWorld exAskServer (initial exGenWorld (fun _ => str% "start") 7) := .init _ _
  obtain ⟨c, r, fi, h1, h2, h3, -, h4, -⟩ := C54_computes (a := exAskArgs) h0 (by intro pc hp; cases hp) rfl (by decide) rfl idOrder
  have h1 := later_trans (arrived _ _) h1
  have hr : r = exAskRun := congrArg Prod.fst h3
  have hall : (exAskRun.map fun d => (d.all inertEntryB, d.map exShow)) = .ok (true, [
      ⟨str% "a.rs", str% "burn", some 5, some 5, some .unchanged, false⟩,
      ⟨str% "w.rs", str% "burn", some 5, some 5, some .unchanged, false⟩,
      ⟨str% "a.rs", str% "transfer", some 207037345000, some 209037345000, some .changed, false⟩,
      ⟨str% "w.rs", str% "transfer", some 207037345000, some 209037345000, some .changed, false⟩]) := by decide +kernel
  have hpg : (exAskRun.bind fun d => (compareResponse .release (str% "1") [str% "repo"] (.ok exAskArgs) (some (str% "org")) (.ok (d, false))).map
      fun p => (p.status, p.contentType, (tableRows (tokens p.body) (str% "sort_me")).length)) = .ok (200, textHtml, 4) := by decide +kernel
  cases hd : exAskRun with
  | ok diff =>
    rw [hd] at hall hpg hr
    have hall := Res.ok.inj hall
    obtain ⟨ha, hs⟩ := Prod.mk.inj hall
    cases hc : compareResponse .release (str% "1") [str% "repo"] (.ok exAskArgs) (some (str% "org")) (.ok (diff, false)) with
    | ok p =>
      unfold Res.bind at hpg; dsimp only at hpg; rw [hc] at hpg
      obtain ⟨e1, e2⟩ := Prod.mk.inj (Res.ok.inj hpg)
      obtain ⟨e2, e3⟩ := Prod.mk.inj e2
      refine ⟨c, diff, p.body, reachable_later h0 h1, ?_, ?_, fun e he => inertEntryB_sound (List.all_eq_true.1 ha e he), e3, hs⟩
      · rw [h4, hr]
        exact List.mem_append_right _ (List.mem_cons_of_mem _ List.mem_cons_self)
      · rw [hc, ← e1, ← e2]
    | err _ => unfold Res.bind at hpg; dsimp only at hpg; rw [hc] at hpg; cases hpg
    | panic => unfold Res.bind at hpg; dsimp only at hpg; rw [hc] at hpg; cases hpg
    | diverge => unfold Res.bind at hpg; dsimp only at hpg; rw [hc] at hpg; cases hpg
  | err _ => rw [hd] at hall; cases hall
  | panic => rw [hd] at hall; cases hall
  | diverge => rw [hd] at hall; cases hall

end Swc
