/-
C87: the report that is shown on the page of the server (`web/src/main.rs`, `web/templates/compare.stpl`), for generated weight files.
-/
import Verif.Props.Report
import Verif.Props.RequestPage
import Verif.Props.StartPage
import Verif.Props.MergeRequests

namespace Swc

open Spec Term

namespace Gen

/-! ### Names and messages are text -/

theorem inert_char {c : Char} (h : WordChar c) : c ≠ '<' ∧ c ≠ '&' ∧ c ≠ '"' := by
  rcases h with h | h | rfl
  · refine ⟨?_, ?_, ?_⟩ <;> rintro rfl <;> revert h <;> decide
  · refine ⟨?_, ?_, ?_⟩ <;> rintro rfl <;> revert h <;> decide
  · decide

theorem inert_name {x : Str} (h : Name x) : Inert x := by
  obtain ⟨⟨c, r, rfl, h1, h2⟩, _⟩ := h
  intro d hd
  rcases List.mem_cons.1 hd with rfl | hd
  · exact inert_char (h1.elim .inl fun h => .inr (.inr h))
  · exact inert_char (h2 d hd)

theorem inert_nat (n : Nat) : Inert (natToStr n) := fun _ hc => inert_char (.inr (.inl (natToStr_isDigit hc)))

theorem inert_reason {m : CompareMethod} {p e : Str} {param : Str → Prop} {range : Str → ComponentRange → Prop} {msg : Str}
    (h : Reason m p e param range msg) (hp : Inert p) (he : Inert e) (hx : ∀ x, param x → Inert x) : Inert msg := by
  rcases h with ⟨n, _, _, rfl⟩ | ⟨_, _, x, hpx, ⟨_, rfl⟩ | ⟨_, rfl⟩⟩
  · exact inert_append (inert_append (inert_append (inert_append (inert_append (inert_append (by unfold Inert; decide) hp) (by unfold Inert; decide)) he)
      (by unfold Inert; decide)) (inert_nat n)) (by unfold Inert; decide)
  · exact inert_append (inert_append (inert_append (inert_append (inert_append (inert_append (by unfold Inert; decide) (hx x hpx)) (by unfold Inert; decide)) hp)
      (by unfold Inert; decide)) he) (by unfold Inert; decide)
  · exact inert_append (inert_append (inert_append (inert_append (inert_append (inert_append (by unfold Inert; decide) (hx x hpx)) (by unfold Inert; decide)) hp)
      (by unfold Inert; decide)) he) (by unfold Inert; decide)

theorem inert_warns {p e : Str} {reads writes : Nat → Prop} {msg : Str} (h : Warns p e reads writes msg) (hp : Inert p) (he : Inert e) : Inert msg := by
  obtain ⟨n, _, ⟨_, rfl⟩ | ⟨_, _, rfl⟩⟩ := h
  · exact inert_append (inert_append (inert_append (inert_append (inert_append (by unfold Inert; decide) (inert_nat n)) (by unfold Inert; decide)) hp)
      (by unfold Inert; decide)) he
  · exact inert_append (inert_append (inert_append (inert_append (inert_append (by unfold Inert; decide) (inert_nat n)) (by unfold Inert; decide)) hp)
      (by unfold Inert; decide)) he

theorem occurs_costed {d : Dimension} {t : SimpleTerm} {x : Str} (h : Occurs x (costed d t)) : Occurs x t := by
  induction t with
  | value n => cases h
  | scalar n => cases h
  | var y =>
    unfold costed at h
    split at h
    · cases h
    · exact h
  | add l r ihl ihr =>
    cases h with
    | addL h => exact .addL (ihl h)
    | addR h => exact .addR (ihr h)
  | mul l r ihl ihr =>
    cases h with
    | mulL h => exact .mulL (ihl h)
    | mulR h => exact .mulR (ihr h)

section

variable {o n : Option Located} {a c : Option ChromaticExtrinsic}

theorem version_ok {v : Option Located} {e : Option ChromaticExtrinsic} (hv : Version v e) {x : Located} (hx : v = some x) : x.fn.Ok x.style := by
  cases hv with
  | none => cases hx
  | some hok _ => cases hx; exact hok

theorem param_inert (ho : Version o a) (hn : Version n c) {x : Str} (h : Param (o.map (·.fn)) (n.map (·.fn)) x) : Inert x := by
  obtain ⟨f, hf, hx⟩ := h
  obtain ⟨s, hs, hxs⟩ := List.mem_flatMap.1 hx
  have hok : ∃ y : Located, y.fn = f ∧ y.fn.Ok y.style := by
    rcases hf with hf | hf
    · obtain ⟨y, hy, rfl⟩ := Option.map_eq_some_iff.1 hf
      exact ⟨y, rfl, version_ok ho hy⟩
    · obtain ⟨y, hy, rfl⟩ := Option.map_eq_some_iff.1 hf
      exact ⟨y, rfl, version_ok hn hy⟩
  obtain ⟨y, rfl, hok⟩ := hok
  exact inert_name ((hok.2.2.2.2.1 s hs).1 x hxs).1

theorem inert_entry (ho : Version o a) (hn : Version n c) {b : Build} {hash : HashOrder} {params : CompareParams} {x : ExtrinsicDiff}
    (h : EntryFor b hash params (a.map (inDim params.unit)) (c.map (inDim params.unit)) x.change)
    (he : Entered params.method params.unit x.file x.name o n x.change) (h1 : Inert x.file) (h2 : Inert x.name) : InertEntry x := by
  have hterm : ∀ r, numbers x.change = some r →
      r.old = termOf params.unit (a.map (inDim params.unit)) ∧ r.new = termOf params.unit (c.map (inDim params.unit)) := by
    intro r hr
    rcases h with ⟨m, _, hx⟩ | ⟨r', hr', hx⟩
    · rw [hx] at hr; cases hr
    · have : r' = r := by
        rcases hx with ⟨_, hx⟩ | ⟨_, _, hx⟩ <;> rw [hx] at hr <;> exact Option.some.inj hr
      subst this
      obtain ⟨_, scopes, _, _, l1, l2, _, hall, _⟩ := compare_ok hr'
      obtain ⟨_, ov, nv, hxx⟩ := hall r' (by simp)
      rw [hxx]
      exact ⟨rfl, rfl⟩
  have hvar : ∀ (v : Option ChromaticExtrinsic) (t : SimpleTerm) (y : Str), (v = a ∨ v = c) → termOf params.unit (v.map (inDim params.unit)) = some t →
      Occurs y t → Inert y := by
    intro v t y hv ht hy
    obtain ⟨e, he', rfl⟩ := Option.map_eq_some_iff.1 ht
    have hoc := occurs_costed hy
    by_cases k1 : y = str% "READ"
    · subst k1; unfold Inert; decide
    by_cases k2 : y = str% "WRITE"
    · subst k2; unfold Inert; decide
    refine param_inert ho hn ((component_param ho hn params.unit y).1 ⟨⟨e, ?_, hoc⟩, k1, k2⟩)
    rcases hv with rfl | rfl
    · exact .inl he'
    · exact .inr he'
  refine ⟨h1, h2, ?_, ?_, ?_, ?_⟩
  · intro m hm
    rcases he with ⟨_, msg, hx, hre⟩ | ⟨_, r, _, _, _, _, ⟨_, hx⟩ | ⟨_, _, _, _, hx, _⟩⟩
    · rw [hx] at hm
      cases hm
      exact inert_reason hre h1 h2 fun x hx => param_inert ho hn hx
    · rw [hx] at hm; cases hm
    · rw [hx] at hm; cases hm
  · intro r' m hm
    rcases he with ⟨_, msg, hx, _⟩ | ⟨_, r, _, _, _, _, ⟨_, hx⟩ | ⟨_, _, _, _, hx, hw⟩⟩
    · rw [hx] at hm; cases hm
    · rw [hx] at hm; cases hm
    · rw [hx] at hm
      cases hm
      exact inert_warns hw h1 h2
  · exact fun r t hr ht y hy => hvar a t y (.inl rfl) ((hterm r hr).1 ▸ ht) hy
  · exact fun r t hr ht y hy => hvar c t y (.inr rfl) ((hterm r hr).2 ▸ ht) hy

end

theorem entries_inert {b : Build} {hash : HashOrder} {rx : RegexEngine} {olds news : List Located} {os ns : List ChromaticExtrinsic}
    {params : CompareParams} {filter : FilterParams} {diff : List ExtrinsicDiff} (h1 : List.Forall₂ Read olds os) (h2 : List.Forall₂ Read news ns)
    (hsz : AllSized params.method params.unit olds news) (h : compareFiles b hash rx os ns params filter = .ok diff)
    (hf : ∀ x, x ∈ olds ∨ x ∈ news → Inert x.file) : ∀ x ∈ diff, InertEntry x := by
  intro x hx
  have hc := complete_of h1 h2 hsz h
  obtain ⟨o, n, ho, hn, he⟩ := C33_right_pair b hash rx os ns params filter diff h x hx
  obtain ⟨o', ho', vo⟩ := first_version h1 x.file x.name
  obtain ⟨n', hn', vn⟩ := first_version h2 x.file x.name
  cases firstOf_unique ho ho'
  cases firstOf_unique hn hn'
  obtain ⟨⟨y, hy, hy1, hy2⟩, _⟩ := (hc.2.1 x.file x.name).1 ⟨x, hx, rfl, rfl⟩
  refine inert_entry vo vn he (hc.2.2 x hx) (hy1 ▸ hf y hy) ?_
  have hok : y.fn.Ok y.style := by
    rcases hy with hy | hy
    · obtain ⟨z, _, hz⟩ := forall₂_mem_right h1.flip hy
      exact hz.1
    · obtain ⟨z, _, hz⟩ := forall₂_mem_right h2.flip hy
      exact hz.1
  exact hy2 ▸ inert_name hok.1

theorem cost_mono {rt rt' : Runtime} (hr : rt.read = rt'.read) (hw : rt.write = rt'.write) (hc : ∀ x, rt.comp x ≤ rt'.comp x) (f : GenFn) (d : Dimension) :
    f.cost rt d ≤ f.cost rt' d := by
  unfold GenFn.cost
  refine Nat.add_le_add_left (List.sum_le_sum fun s _ => ?_) _
  cases d <;> cases s <;> simp only [Summand.cost, hr, hw, le_refl]
  · exact Nat.mul_le_mul_left _ (hc _)
  · exact Nat.mul_le_mul_right _ (Nat.mul_le_mul_left _ (hc _))
  · exact Nat.mul_le_mul_right _ (Nat.mul_le_mul_left _ (hc _))
  · exact Nat.mul_le_mul_left _ (hc _)

/-- The numbers that are reported fit into 128 bits. -/
theorem reported_computed {o n : Option Located} {a c : Option ChromaticExtrinsic} (ho : Version o a) (hn : Version n c) {m : CompareMethod}
    {d : Dimension} {r : TermChange} (hsz : Sized m (o.map (·.fn)) (n.map (·.fn)) d) (h : Reported m (o.map (·.fn)) (n.map (·.fn)) d r)
    (hk : KindOf o n d r.change) (hch : r.change = .changed) : Computed r := by
  obtain ⟨x, rfl⟩ : ∃ x, o = some x := by
    cases o with
    | some x => exact ⟨x, rfl⟩
    | none => have := hk.1.2 rfl; rw [hch] at this; cases this
  obtain ⟨y, rfl⟩ : ∃ y, n = some y := by
    cases n with
    | some x => exact ⟨x, rfl⟩
    | none => have := hk.2.1.2 rfl; rw [hch] at this; cases this
  have key : ∃ rt, Within (some x.fn) (some y.fn) rt ∧ ReportsAt (some x.fn) (some y.fn) d rt r := by
    have hle := fun z => (lowest_le_highest' ho hn z).1
    cases m with
    | base => exact ⟨point (lowest (some x.fn) (some y.fn)), ⟨rfl, rfl, fun z => ⟨le_refl _, hle z⟩⟩, h⟩
    | exactWorst => exact h.2
    | guessWorst => exact h.2
    | exactAsymptotic => exact ⟨point (highest (some x.fn) (some y.fn)), ⟨rfl, rfl, fun z => ⟨hle z, le_refl _⟩⟩, h⟩
    | asymptotic => exact ⟨point (highest (some x.fn) (some y.fn)), ⟨rfl, rfl, fun z => ⟨hle z, le_refl _⟩⟩, h⟩
  obtain ⟨rt, ⟨w1, w2, w3⟩, e1, e2, e3, -⟩ := key
  have lim : ∀ f, (some x.fn = some f ∨ some y.fn = some f) → f.cost rt d < 2 ^ 128 := fun f hf =>
    Nat.lt_of_le_of_lt (cost_mono (rt' := point (highest (some x.fn) (some y.fn))) w1 w2 (fun z => (w3 z).2) f d)
      (Nat.lt_of_lt_of_le (hsz f hf) (costLimit_le m))
  exact ⟨_, _, e1, e2, lim _ (.inl rfl), lim _ (.inr rfl), e3⟩

theorem complete_computed {rx : RegexEngine} {filter : FilterParams} {olds news : List Located} {os ns : List ChromaticExtrinsic} {m : CompareMethod}
    {d : Dimension} {all : List ExtrinsicDiff} (r1 : List.Forall₂ Read olds os) (r2 : List.Forall₂ Read news ns) (hsz : AllSized m d olds news)
    (h : CompleteReport rx filter m d olds news all) {e : ExtrinsicDiff} (he : e ∈ all) {r : TermChange} (hr : numbers e.change = some r)
    (hch : r.change = .changed) : Computed r := by
  obtain ⟨o, _, vo⟩ := first_version r1 e.file e.name
  obtain ⟨n, _, vn⟩ := first_version r2 e.file e.name
  rcases h.2.2 e he with ⟨_, m, hm, _⟩ | ⟨_, r', h1, h2, _, _, ⟨_, hm⟩ | ⟨_, _, _, _, hm, _⟩⟩
  · rw [hm] at hr; cases hr
  · rw [hm] at hr; cases hr; exact reported_computed vo vn (hsz _ _) h1 h2 hch
  · rw [hm] at hr; cases hr; exact reported_computed vo vn (hsz _ _) h1 h2 hch

theorem parsed_unique {W : World} {env : Env} {repo : Path} {lenient : Bool} {s : W.State} {files : List Path} {l l' : List ChromaticExtrinsic}
    (h : ParsedAs W env repo lenient s files l) (h' : ParsedAs W env repo lenient s files l') : l = l' := by
  rcases parsedAs_iff.1 h with ⟨e, h⟩ | ⟨e, h⟩ <;> rcases parsedAs_iff.1 h' with ⟨e', h'⟩ | ⟨e', h'⟩
  · rw [h] at h'; exact Res.ok.inj h'
  · rw [e] at e'; cases e'
  · rw [e] at e'; cases e'
  · rw [h] at h'; exact Res.ok.inj h'

end Gen

/-- The filter of a request. -/
def Spec.filterOf (a : CompareArgs) : FilterParams := { threshold := F64.ofNat a.threshold, change := none, pallet := a.pallet, extrinsic := a.extrinsic }

/-- The page shows a report: of the complete report on two revisions with these functions the entries that pass the filter, the errors first and then by
key, as the rows of its table, and the messages of its errors and warnings. -/
structure Spec.ShowsReport (rx : RegexEngine) (a : CompareArgs) (org : Str) (olds news : List Located) (all diff : List ExtrinsicDiff) (page : Str) : Prop where
  complete : CompleteReport rx (filterOf a) a.method a.unit olds news all
  kept : ∃ p : ExtrinsicDiff → Bool, (∀ e, p e = true ↔ Kept (filterOf a) e) ∧ SortedBadFirst isFailed sortKey (all.filter p) diff
  rows : List.Forall₂ (fun p row => ∃ c0 c1 c2 c3 c4 c5 c6 c7 c8, row.2 = [c0, c1, c2, c3, c4, c5, c6, c7, c8] ∧
      RowShows org a p.1 p.2 row.1 c0 c1 c2 c3 c4 c5 c6 c7 c8)
    (diff.filterMap fun e => (numbers e.change).map fun c => (e, c)) (tableRows (tokens page) (str% "sort_me"))
  computed : ∀ e ∈ diff, ∀ c, numbers e.change = some c → c.change = .changed → Computed c
  errors : linesOf (tokens page) (str% "collapseErrors") = (diff.filterMap ExtrinsicDiff.error).map strip
  warnings : linesOf (tokens page) (str% "collapseWarns") = (diff.filterMap ExtrinsicDiff.warning).map strip

/-- The page for what is read from these functions shows the report on them. -/
theorem Gen.shows_report {b : Build} {hash : HashOrder} {rx : RegexEngine} {olds news : List Located} {os ns : List ChromaticExtrinsic}
    {params : CompareParams} {a : CompareArgs} (hpm : params.method = a.method) (hpu : params.unit = a.unit)
    {all diff : List ExtrinsicDiff} (r1 : List.Forall₂ Gen.Read olds os) (r2 : List.Forall₂ Gen.Read news ns)
    (hsz : AllSized a.method a.unit olds news) (hcf : compareFiles b hash rx os ns params (filterOf a) = .ok all)
    (hin : ∀ x, x ∈ olds ∨ x ∈ news → Inert x.file) (hdiff : diff = sortChanges (filterChanges all (filterOf a)))
    {b' : Build} {version : Str} {repos : List Str} {org : Str} {cached : Bool} {page : Str}
    (hr : BareNames repos) (h1 : Inert org) (h2 : Inert a.repo) (h3 : Inert a.old) (h4 : Inert a.new)
    (hpage : comparePage b' version repos org a diff cached = .ok page) : ShowsReport rx a org olds news all diff page := by
  rw [← hpm, ← hpu] at hsz
  have hcomp := Gen.complete_of r1 r2 hsz hcf
  have hine := Gen.entries_inert r1 r2 hsz hcf hin
  obtain ⟨k, hk1, hk2⟩ := C36_keeps_exactly all (filterOf a)
  have hsort := C37_sort_changes (filterChanges all (filterOf a))
  rw [← hdiff] at hsort
  have hmem : ∀ e ∈ diff, e ∈ all := by
    intro e he
    have := hsort.perm.mem_iff.1 he
    rw [hk2] at this
    exact List.mem_of_mem_filter this
  have he : ∀ e ∈ diff, InertEntry e := fun e he => hine e (hmem e he)
  have hcd := fun e he c => Gen.complete_computed r1 r2 hsz hcomp (hmem e he) (r := c)
  obtain ⟨m1, m2⟩ := C73_messages hr h1 h2 h3 h4 he hpage
  rw [hpm, hpu] at hcomp
  exact ⟨hcomp, ⟨k, hk1, hk2 ▸ hsort⟩, C73_rows hr h1 h2 h3 h4 he hpage, hcd, m1, m2⟩

/-- C87: the server answers a request for a comparison, by any method, from its cache or not.  Then the comparison was made at most ten minutes ago
with the arguments of the request, both revisions were checked out for it in the repository that it names, and if all files of both
checkouts are generated weight files (or, if errors are ignored, files without any `impl` block) then the page shows the complete report on the functions
in these files, filtered and sorted. -/
theorem C87_answer {W : World} {srv : Server} {c : Config W.State} (hR : Reachable W srv c) (hsyn : srv.env.syn = rustSyn) {a : CompareArgs}
    {id : Nat} {diff : List ExtrinsicDiff} {cached : Bool} {t : Nat} (hl : Entry.answered id a (.ok diff) cached t ∈ c.sh.log)
    {b : Build} {version : Str} {repos : List Str} {org : Str} {page : Str}
    (hp : compareResponse b version repos (.ok a) (some org) (.ok (diff, cached)) = .ok ⟨200, textHtml, page⟩)
    (hr : BareNames repos) (h1 : Inert org) (h2 : Inert a.repo) (h3 : Inert a.old) (h4 : Inert a.new) :
    ∃ repo id' ho st fi t' G1 s1 files1 G2 s2 files2,
      srv.repos a.repo = some repo ∧ Entry.computed id' a ho st fi (.ok diff) t' ∈ c.sh.log ∧ t' ≤ t ∧ t < t' + maxAge ∧
      CheckedOut W (trim a.old) (a.gitPull ≠ some false) true st G1 s1 ∧ Listed W s1 repo (trim a.pathPattern) 6000 files1 ∧
      CheckedOut W (trim a.new) (a.gitPull ≠ some false) true s1 G2 s2 ∧ Listed W s2 repo (trim a.pathPattern) 6000 files2 ∧
      ∀ olds news, FunctionsOf (W.fs s1) repo a.ignoreErrors files1 olds → FunctionsOf (W.fs s2) repo a.ignoreErrors files2 news →
        AllSized a.method a.unit olds news → (∀ x, x ∈ olds ∨ x ∈ news → Inert x.file) → ∃ all, ShowsReport srv.rx a org olds news all diff page := by
  obtain ⟨id', ho, st, fi, t', hcm, ht1, ht2⟩ : ∃ id' ho st fi t', Entry.computed id' a ho st fi (.ok diff) t' ∈ c.sh.log ∧ t' ≤ t ∧ t < t' + maxAge := by
    obtain ⟨pre, post, hsp⟩ := List.append_of_mem hl
    cases cached with
    | true =>
      obtain ⟨v, hv, id', ho, st, fi, t', hm', ht⟩ := C54_cached hR hsp
      obtain rfl : diff = v := Except.ok.inj hv
      exact ⟨id', ho, st, fi, t', by rw [hsp]; exact List.mem_append_left _ hm', ht⟩
    | false =>
      rcases C54_not_cached hR hsp with ⟨_, m, hm'⟩ | ⟨pre', ho, st, fi, res, hpre, ⟨v, hv, hv'⟩ | ⟨m, _, hm'⟩⟩
      · nomatch hm'
      · obtain rfl : diff = v := Except.ok.inj hv'
        exact ⟨id, ho, st, fi, t, by rw [hsp, hpre, hv]; simp, le_refl _, by unfold maxAge; omega⟩
      · nomatch hm'
  obtain ⟨path, filter, out, hrp, hfilter, hout, hfin, _⟩ := C55_result hR hcm
  obtain ⟨all, hall, hdiff⟩ : ∃ all, out.1 = .ok all ∧ diff = sortChanges (filterChanges all filter) := by
    generalize out.1 = o at hfin
    cases o with
    | ok all => exact ⟨all, rfl, Res.ok.inj hfin⟩
    | err _ => nomatch hfin
    | panic => nomatch hfin
    | diverge => nomatch hfin
  have hfo : filter = filterOf a := hfilter
  subst hfo
  have hrun : compareCommits (W := W) srv.build ho srv.rx srv.env path (trim a.old) (trim a.new)
        { method := a.method, unit := a.unit, ignoreErrors := a.ignoreErrors, gitPull := a.gitPull ≠ some false, offline := false,
          gitForce := true } (filterOf a) (trim a.pathPattern) 6000 ⟨st, []⟩ = (.ok all, out.2) := by
    rw [← hout, ← hall]
  obtain ⟨_, _, G1, s1, files1, os, G2, s2, files2, ns, _, c1, l1, p1, c2, l2, p2, hcf, _⟩ :=
    (C41_compare_commits _ _ _ _ _ _ _ _ _ _ _ _ _ _).1 hrun
  have hpull : ∀ (x : Bool), (x && !false) = x := by decide
  unfold CompareParams.shouldPull at c1 c2
  rw [hpull] at c1 c2
  refine ⟨path, id', ho, st, fi, t', G1, s1, files1, G2, s2, files2, hrp, hcm, ht1, ht2, c1, l1, c2, l2, fun olds news f1 f2 hsz hin => ?_⟩
  have henv : srv.env = ⟨rustSyn, srv.env.cc⟩ := by rw [← hsyn]
  rw [henv] at p1 p2
  obtain ⟨os', q1, r1⟩ := Gen.functions_parsed (cc := srv.env.cc) f1
  obtain ⟨ns', q2, r2⟩ := Gen.functions_parsed (cc := srv.env.cc) f2
  cases Gen.parsed_unique p1 q1
  cases Gen.parsed_unique p2 q2
  have hpage : comparePage b version repos org a diff cached = .ok page := by
    unfold compareResponse at hp
    dsimp only at hp
    cases hk : comparePage b version repos org a diff cached with
    | ok body => rw [hk] at hp; exact congrArg Res.ok (congrArg Response.body (Res.ok.inj hp))
    | err _ => rw [hk] at hp; nomatch hp
    | panic => rw [hk] at hp; nomatch hp
    | diverge => rw [hk] at hp; nomatch hp
  exact ⟨all, Gen.shows_report rfl rfl r1 r2 hsz hcf hin hdiff hr h1 h2 h3 h4 hpage⟩

/-- C87: the arguments of such a request are those that its query spells, up to HTML entities. -/
theorem C87_request {u : Utf8Lossy} {ent : Entities} {ps : List (Str × Str)} {q : Bytes} {a : CompareArgs} (hs : SpellsPairs ps q)
    (hq : requestArgs u ent q = some a) :
    ∃ asked, Asks ps asked ∧ a = { asked with new := ent.decode asked.new, old := ent.decode asked.old, pathPattern := ent.decode asked.pathPattern } := by
  obtain ⟨asked, h, rfl⟩ := Option.map_eq_some_iff.1 hq
  exact ⟨asked, (C69_query u hs asked).1 h, rfl⟩

/-- C87: every row of a page that shows a report is about a function in the files that can be compared, and shows what the report should say about it. -/
theorem C87_rows {rx : RegexEngine} {a : CompareArgs} {org : Str} {olds news : List Located} {all diff : List ExtrinsicDiff} {page : Str}
    (h : ShowsReport rx a org olds news all diff page) :
    ∀ row ∈ tableRows (tokens page) (str% "sort_me"), ∃ e r c0 c1 c2 c3 c4 c5 c6 c7 c8,
      row.2 = [c0, c1, c2, c3, c4, c5, c6, c7, c8] ∧ RowShows org a e r row.1 c0 c1 c2 c3 c4 c5 c6 c7 c8 ∧
      (∃ x, (x ∈ olds ∨ x ∈ news) ∧ x.file = e.file ∧ x.fn.name = e.name) ∧ Selected rx (filterOf a) e.file e.name ∧ Kept (filterOf a) e ∧
      ¬ Incomparable a.method ((first olds e.file e.name).map (·.fn)) ((first news e.file e.name).map (·.fn)) ∧
      Reported a.method ((first olds e.file e.name).map (·.fn)) ((first news e.file e.name).map (·.fn)) a.unit r ∧
      KindOf (first olds e.file e.name) (first news e.file e.name) a.unit r.change ∧
      EquationFor a.unit ((first olds e.file e.name).map (·.fn)) r.old ∧ EquationFor a.unit ((first news e.file e.name).map (·.fn)) r.new := by
  intro row hrow
  obtain ⟨⟨e, r⟩, her, c0, c1, c2, c3, c4, c5, c6, c7, c8, hc, hs⟩ := forall₂_mem_right h.rows hrow
  obtain ⟨e', he', hre⟩ := List.mem_filterMap.1 her
  obtain ⟨r', hr', hpe⟩ := Option.map_eq_some_iff.1 hre
  obtain ⟨rfl, rfl⟩ := Prod.mk.inj hpe
  obtain ⟨p, hp, hsort⟩ := h.kept
  obtain ⟨hall, hkept⟩ := List.mem_filter.1 (hsort.perm.mem_iff.1 he')
  obtain ⟨hpres, hsel⟩ := (h.complete.2.1 e'.file e'.name).1 ⟨e', hall, rfl, rfl⟩
  refine ⟨e', r', c0, c1, c2, c3, c4, c5, c6, c7, c8, hc, hs, hpres, hsel, (hp e').1 hkept, ?_⟩
  rcases h.complete.2.2 e' hall with ⟨_, m, hm, _⟩ | ⟨h1, r'', h2, h3, h4, h5, ⟨_, hm⟩ | ⟨_, _, _, _, hm, _⟩⟩
  · rw [hm] at hr'; cases hr'
  · rw [hm] at hr'; cases hr'; exact ⟨h1, h2, h3, h4, h5⟩
  · rw [hm] at hr'; cases hr'; exact ⟨h1, h2, h3, h4, h5⟩

/-- C87: nothing is left out.  A function in the files that passes the filters by name has an entry, and if the entry passes the filter by change then it is a
row of the table or a message. -/
theorem C87_nothing_missing {rx : RegexEngine} {a : CompareArgs} {org : Str} {olds news : List Located} {all diff : List ExtrinsicDiff} {page : Str}
    (h : ShowsReport rx a org olds news all diff page) {x : Located} (hx : x ∈ olds ∨ x ∈ news) (hsel : Selected rx (filterOf a) x.file x.fn.name) :
    ∃ e ∈ all, e.file = x.file ∧ e.name = x.fn.name ∧ (Kept (filterOf a) e →
      (∃ r, ∃ row ∈ tableRows (tokens page) (str% "sort_me"), ∃ c0 c1 c2 c3 c4 c5 c6 c7 c8,
        row.2 = [c0, c1, c2, c3, c4, c5, c6, c7, c8] ∧ RowShows org a e r row.1 c0 c1 c2 c3 c4 c5 c6 c7 c8) ∨
      ∃ m, e.change = .failed m ∧ strip m ∈ linesOf (tokens page) (str% "collapseErrors")) := by
  obtain ⟨e, he, h1, h2⟩ := (h.complete.2.1 x.file x.fn.name).2 ⟨⟨x, hx, rfl, rfl⟩, hsel⟩
  refine ⟨e, he, h1, h2, fun hk => ?_⟩
  obtain ⟨p, hp, hsort⟩ := h.kept
  have hd : e ∈ diff := hsort.perm.mem_iff.2 (List.mem_filter.2 ⟨he, (hp e).2 hk⟩)
  cases hc : e.change with
  | failed m =>
    refine .inr ⟨m, rfl, ?_⟩
    rw [h.errors]
    exact List.mem_map_of_mem (List.mem_filterMap.2 ⟨e, hd, by unfold ExtrinsicDiff.error; rw [hc]⟩)
  | changed r =>
    obtain ⟨row, hrow, k⟩ := forall₂_mem_left h.rows (List.mem_filterMap.2 ⟨e, hd, by rw [hc]; rfl⟩)
    exact .inl ⟨r, row, hrow, k⟩
  | warning r m =>
    obtain ⟨row, hrow, k⟩ := forall₂_mem_left h.rows (List.mem_filterMap.2 ⟨e, hd, by rw [hc]; rfl⟩)
    exact .inl ⟨r, row, hrow, k⟩

/-- What comes of a comparison of generated files that is run alone. -/
theorem Gen.outcome_shown_any {W : World} {srv : Server} (hsyn : srv.env.syn = rustSyn) {a : CompareArgs} {repo : Path} (hk : srv.repos a.repo = some repo)
    {ho : HashOrder} (hdot : ¬ DotDot (trim a.pathPattern)) {G1 G2 : List Event} {s0 s1 s2 : W.State} {files1 files2 : List Path} {olds news : List Located}
    (c1 : CheckedOut W (trim a.old) (a.gitPull ≠ some false) true s0 G1 s1) (l1 : Listed W s1 repo (trim a.pathPattern) 6000 files1)
    (f1 : FunctionsOf (W.fs s1) repo a.ignoreErrors files1 olds)
    (c2 : CheckedOut W (trim a.new) (a.gitPull ≠ some false) true s1 G2 s2) (l2 : Listed W s2 repo (trim a.pathPattern) 6000 files2)
    (f2 : FunctionsOf (W.fs s2) repo a.ignoreErrors files2 news)
    (hrx : ∀ q, a.pallet = some q ∨ a.extrinsic = some q → srv.rx.compile q ≠ none)
    (hsz : AllSized a.method a.unit olds news) (hin : ∀ x, x ∈ olds ∨ x ∈ news → Inert x.file)
    {version : Str} {repos : List Str} {org : Str} (hr : BareNames repos) (h1 : Inert org) (h2 : Inert a.repo) (h3 : Inert a.old) (h4 : Inert a.new)
    {r : Res (List ExtrinsicDiff)} {fi : W.State} (hal : Alone W srv ho a s0 r fi) :
    ∃ all diff, r = .ok diff ∧ fi = s2 ∧ ∀ cached, ∃ page,
      compareResponse .release version repos (.ok a) (some org) (.ok (diff, cached)) = .ok ⟨200, textHtml, page⟩ ∧
      ShowsReport srv.rx a org olds news all diff page := by
  obtain ⟨path, filter, out, hrp, hfilter, hout, hfin, hst⟩ := hal
  rw [hk] at hrp
  cases hrp
  have hfo : filter = filterOf a := hfilter
  subst hfo
  obtain ⟨os, p1, r1⟩ := Gen.functions_parsed (cc := srv.env.cc) f1
  obtain ⟨ns, p2, r2⟩ := Gen.functions_parsed (cc := srv.env.cc) f2
  have henv : srv.env = ⟨rustSyn, srv.env.cc⟩ := by rw [← hsyn]
  rw [← henv] at p1 p2
  obtain ⟨all, hall⟩ := Gen.report_exists (b := srv.build) (hash := ho) (rx := srv.rx) (filter := filterOf a)
    (params := { method := a.method, unit := a.unit, ignoreErrors := a.ignoreErrors, gitPull := a.gitPull ≠ some false, offline := false, gitForce := true })
    r1 r2 hsz hrx
  obtain ⟨ps, ms, hps, _⟩ := id l1
  have hpull : ∀ (x : Bool), (x && !false) = x := by decide
  have hrun : out = (.ok all, ⟨s2, [] ++ G1 ++ globs repo ps ++ [.parse files1] ++ G2 ++ globs repo ps ++ [.parse files2]⟩) := by
    rw [hout]
    refine (C41_compare_commits _ _ _ _ _ _ _ _ _ _ _ _ _ _).2
      ⟨hdot, ps, G1, s1, files1, os, G2, s2, files2, ns, hps, ?_, l1, p1, ?_, l2, p2, hall, rfl, rfl⟩
    · unfold CompareParams.shouldPull
      rw [hpull]
      exact c1
    · unfold CompareParams.shouldPull
      rw [hpull]
      exact c2
  rw [hrun] at hfin hst
  have hcomp := Gen.complete_of r1 r2 hsz hall
  refine ⟨all, sortChanges (filterChanges all (filterOf a)), ?_, hst, fun cached => ?_⟩
  · rw [hfin]
    simp only [finish]
  · obtain ⟨page, hpage⟩ := C73_total version repos org a (sortChanges (filterChanges all (filterOf a))) cached fun e he r hr hch => by
      have := (C37_sort_changes (filterChanges all (filterOf a))).perm.mem_iff.1 he
      exact Gen.complete_computed r1 r2 hsz hcomp (List.mem_of_mem_filter this) hr hch
    refine ⟨page, ?_, Gen.shows_report rfl rfl r1 r2 hsz hall hin rfl hr h1 h2 h3 h4 hpage⟩
    unfold compareResponse
    dsimp only
    rw [hpage]
    rfl

/-- The same, for an answer that is not from the cache. -/
theorem Gen.outcome_shown {W : World} {srv : Server} (hsyn : srv.env.syn = rustSyn) {a : CompareArgs} {repo : Path} (hk : srv.repos a.repo = some repo)
    {ho : HashOrder} (hdot : ¬ DotDot (trim a.pathPattern)) {G1 G2 : List Event} {s0 s1 s2 : W.State} {files1 files2 : List Path} {olds news : List Located}
    (c1 : CheckedOut W (trim a.old) (a.gitPull ≠ some false) true s0 G1 s1) (l1 : Listed W s1 repo (trim a.pathPattern) 6000 files1)
    (f1 : FunctionsOf (W.fs s1) repo a.ignoreErrors files1 olds)
    (c2 : CheckedOut W (trim a.new) (a.gitPull ≠ some false) true s1 G2 s2) (l2 : Listed W s2 repo (trim a.pathPattern) 6000 files2)
    (f2 : FunctionsOf (W.fs s2) repo a.ignoreErrors files2 news)
    (hrx : ∀ q, a.pallet = some q ∨ a.extrinsic = some q → srv.rx.compile q ≠ none)
    (hsz : AllSized a.method a.unit olds news) (hin : ∀ x, x ∈ olds ∨ x ∈ news → Inert x.file)
    {version : Str} {repos : List Str} {org : Str} (hr : BareNames repos) (h1 : Inert org) (h2 : Inert a.repo) (h3 : Inert a.old) (h4 : Inert a.new)
    {r : Res (List ExtrinsicDiff)} {fi : W.State} (hal : Alone W srv ho a s0 r fi) :
    ∃ all diff page, r = .ok diff ∧ fi = s2 ∧
      compareResponse .release version repos (.ok a) (some org) (.ok (diff, false)) = .ok ⟨200, textHtml, page⟩ ∧
      ShowsReport srv.rx a org olds news all diff page := by
  obtain ⟨all, diff, e1, e2, h⟩ := Gen.outcome_shown_any hsyn hk hdot c1 l1 f1 c2 l2 f2 hrx hsz hin (version := version) hr h1 h2 h3 h4 hal
  obtain ⟨page, k1, k2⟩ := h false
  exact ⟨all, diff, page, e1, e2, k1, k2⟩

/-- C87: there is such an answer.  If nothing else is going on, the comparison is not in the cache, both revisions can be checked out, all their files are
generated weight files (or, if errors are ignored, files without any `impl` block) and the filters are regular expressions, then the server answers with a
page that shows the report. -/
theorem C87_served {W : World} {srv : Server} {c : Config W.State} (hR : Reachable W srv c) (hsyn : srv.env.syn = rustSyn) (hq : Quiet c.threads)
    (hpo : c.sh.poisoned = false) {a : CompareArgs} {repo : Path} (hk : srv.repos a.repo = some repo) (hc : cacheGet c.sh.cache a = none)
    (ho : HashOrder) (hdot : ¬ DotDot (trim a.pathPattern)) {G1 G2 : List Event} {s1 s2 : W.State} {files1 files2 : List Path} {olds news : List Located}
    (c1 : CheckedOut W (trim a.old) (a.gitPull ≠ some false) true (c.sh.repo a.repo) G1 s1) (l1 : Listed W s1 repo (trim a.pathPattern) 6000 files1)
    (f1 : FunctionsOf (W.fs s1) repo a.ignoreErrors files1 olds)
    (c2 : CheckedOut W (trim a.new) (a.gitPull ≠ some false) true s1 G2 s2) (l2 : Listed W s2 repo (trim a.pathPattern) 6000 files2)
    (f2 : FunctionsOf (W.fs s2) repo a.ignoreErrors files2 news)
    (hrx : ∀ q, a.pallet = some q ∨ a.extrinsic = some q → srv.rx.compile q ≠ none)
    (hsz : AllSized a.method a.unit olds news) (hin : ∀ x, x ∈ olds ∨ x ∈ news → Inert x.file)
    {version : Str} {repos : List Str} {org : Str} (hr : BareNames repos) (h1 : Inert org) (h2 : Inert a.repo) (h3 : Inert a.old) (h4 : Inert a.new) :
    ∃ c' all diff page, Later W srv ⟨c.threads ++ [begin (.compare a)], c.sh⟩ c' ∧ c'.threads = c.threads ++ [.finished] ∧
      Entry.answered c.threads.length a (.ok diff) false c.sh.clock ∈ c'.sh.log ∧ c'.sh.repo a.repo = s2 ∧
      compareResponse .release version repos (.ok a) (some org) (.ok (diff, false)) = .ok ⟨200, textHtml, page⟩ ∧
      ShowsReport srv.rx a org olds news all diff page := by
  obtain ⟨c', r, fi, hlat, hth, _, hal, hlog, hfi, _⟩ := C54_computes (a := a) hR hq hpo (by rw [hk]; simp) hc ho
  obtain ⟨all, diff, page, rfl, rfl, k1, k2⟩ := Gen.outcome_shown hsyn hk hdot c1 l1 f1 c2 l2 f2 hrx hsz hin (version := version) hr h1 h2 h3 h4 hal
  exact ⟨c', all, diff, page, hlat, hth, by rw [hlog]; simp [answerOf], hfi, k1, k2⟩

/-- C87: from the start page to the numbers in the files.  A repository with a preset and two revisions are selected and the button is pressed.  When the
server answers with a page then every row of the page shows what the old and the new version of a function cost for the largest documented parameters, as
written in the files of these two revisions (if all files are generated weight files or have no `impl` block). -/
theorem C87_button {served : List Str} {store : Str → Option Str} (u : Utf8Lossy) (ent : Entities) {tr : List PageEvent} {p : StartPage}
    (h : Visit served store tr p) {r f s pattern : Str} (hr : p.repo = some r) (hf : p.first = some f) (hs : p.second = some s)
    (hp : pathPresets.lookup r = some pattern) (h1 : UrlSafe f) (h2 : UrlSafe s) (p1 : '+' ∉ f) (p2 : '+' ∉ s) :
    p.shownRepo = r ∧ p.shownFirst = f ∧ p.shownSecond = s ∧ ∃ q a, p.compare = some q ∧ requestArgs u ent q = some a ∧
    ∀ {W : World} {srv : Server} {c : Config W.State}, Reachable W srv c → srv.env.syn = rustSyn →
    ∀ {id : Nat} {diff : List ExtrinsicDiff} {cached : Bool} {t : Nat}, Entry.answered id a (.ok diff) cached t ∈ c.sh.log →
    ∀ {b : Build} {version : Str} {repos : List Str} {org : Str} {page : Str},
    compareResponse b version repos (.ok a) (some org) (.ok (diff, cached)) = .ok ⟨200, textHtml, page⟩ →
    BareNames repos → Inert org → Inert r → Inert f → Inert s →
    ∃ repo st G1 s1 files1 G2 s2 files2, srv.repos r = some repo ∧
      CheckedOut W (trim f) true true st G1 s1 ∧ Listed W s1 repo (trim pattern) 6000 files1 ∧
      CheckedOut W (trim s) true true s1 G2 s2 ∧ Listed W s2 repo (trim pattern) 6000 files2 ∧
      ∀ olds news, FunctionsOf (W.fs s1) repo true files1 olds → FunctionsOf (W.fs s2) repo true files2 news →
        AllSized .asymptotic .time olds news → (∀ x, x ∈ olds ∨ x ∈ news → Inert x.file) →
        ∀ row ∈ tableRows (tokens page) (str% "sort_me"), ∃ e c c0 c1 c2 c3 c4 c5 c6 c7 c8, row.2 = [c0, c1, c2, c3, c4, c5, c6, c7, c8] ∧
          RowShows org a e c row.1 c0 c1 c2 c3 c4 c5 c6 c7 c8 ∧
          (∃ x, (x ∈ olds ∨ x ∈ news) ∧ x.file = e.file ∧ x.fn.name = e.name) ∧
          ReportsAt ((first olds e.file e.name).map (·.fn)) ((first news e.file e.name).map (·.fn)) .time
            (point (highest ((first olds e.file e.name).map (·.fn)) ((first news e.file e.name).map (·.fn)))) c := by
  obtain ⟨e1, e2, e3, q, hq, ha⟩ := C83_compare u ent h hr hf hs hp h1 h2 p1 p2
  refine ⟨e1, e2, e3, q, _, hq, ha, ?_⟩
  intro W srv c hR hsyn id diff cached t hl b version repos org page hpg hrep i1 i2 i3 i4
  obtain ⟨repo, id', ho, st, fi, t', G1, s1, files1, G2, s2, files2, k1, _, _, _, k2, k3, k4, k5, k6⟩ := C87_answer hR hsyn hl hpg hrep i1 i2 i3 i4
  refine ⟨repo, st, G1, s1, files1, G2, s2, files2, k1, k2, k3, k4, k5, fun olds news g1 g2 hsz hin row hrow => ?_⟩
  obtain ⟨all, hsh⟩ := k6 olds news g1 g2 hsz hin
  obtain ⟨e, c', c0, c1, c2, c3, c4, c5, c6, c7, c8, j1, j2, j3, _, _, _, j4, _⟩ := C87_rows hsh row hrow
  exact ⟨e, c', c0, c1, c2, c3, c4, c5, c6, c7, c8, j1, j2, j3, j4⟩

/-! ### A concrete page -/

/-- The hypotheses of `C87_served` are met by a request to a server that has just started, so those of `C87_answer` and `C87_rows` are, too. -/
theorem C87_example : ∃ c all diff page, Reachable exGenWorld exAskServer c ∧ Entry.answered 0 exAskArgs (.ok diff) false 7 ∈ c.sh.log ∧
    compareResponse .release (str% "1") [str% "repo"] (.ok exAskArgs) (some (str% "org")) (.ok (diff, false)) = .ok ⟨200, textHtml, page⟩ ∧
    ShowsReport exRegex exAskArgs (str% "org") (exLocated 7000000) (exLocated 9000000) all diff page := by
  have h0 : Reachable exGenWorld exAskServer (initial exGenWorld (fun _ => str% "start") 7) := .init _ _
  have hco : ∀ s : Str, ∃ G, CheckedOut exGenWorld (str% "v1") false true s G (str% "v1") := fun s =>
    ⟨_, [], _, _, .inr ⟨rfl, rfl, rfl⟩, rfl, .inr (.inr ⟨rfl, _, _, _, ⟨_, rfl, (by rintro ⟨_, _, _, h⟩; cases h), rfl⟩, ⟨_, rfl, ⟨_, _, _, rfl⟩, rfl⟩, rfl⟩)⟩
  have hcn : ∀ s : Str, ∃ G, CheckedOut exGenWorld (str% "v2") false true s G (str% "v2") := fun s =>
    ⟨_, [], _, _, .inr ⟨rfl, rfl, rfl⟩, rfl, .inr (.inl ⟨rfl, _, rfl, ⟨_, _, _, rfl⟩, rfl⟩)⟩
  have hli : ∀ s : Str, Listed exGenWorld s [.normal (str% "r")] (str% "*") 6000 exGenFiles := fun s =>
    ((C38_listed (W := exGenWorld) [.normal (str% "r")] (str% "*") 6000 ⟨s, []⟩ _ exGenFiles).1 rfl).1
  obtain ⟨G1, c1⟩ := hco (str% "start")
  obtain ⟨G2, c2⟩ := hcn (str% "v1")
  obtain ⟨c, all, diff, page, k1, _, k2, _, k3, k4⟩ := C87_served (a := exAskArgs) (version := str% "1") (repos := [str% "repo"]) (org := str% "org") h0 rfl
    (by intro pc hp; cases hp) rfl rfl rfl idOrder (by rw [← hasDotDot_iff]; decide) c1 (hli _) (exGen_functions _).1 c2 (hli _) (exGen_functions _).2
    (by rintro q (h | h) <;> cases h) (exGen_sized _ _)
    (by
      intro x hx
      have : x.file = str% "a.rs" ∨ x.file = str% "w.rs" := by
        rcases hx with hx | hx <;> simp [exLocated, exGenFns] at hx <;> rcases hx with rfl | rfl | rfl | rfl <;> simp
      rcases this with h | h <;> rw [h] <;> unfold Inert <;> decide)
    (by unfold BareNames; decide) (by unfold Inert; decide) (by unfold Inert; decide) (by unfold Inert; decide) (by unfold Inert; decide)
  exact ⟨c, all, diff, page, reachable_later h0 (later_trans (arrived _ _) k1), k2, k3, k4⟩

end Swc
