/-
C32–C36: comparison of two sets of calls and filtering (`core/src/lib.rs:684-746,801-820`).
-/
import Verif.Spec.Files
import Verif.Props.CompareExtrinsics
import Verif.Props.Chromatic
import Verif.Props.Percent
import Verif.Props.Sanity

namespace Swc

open Spec Std

/-! ### What is computed -/

theorem simplifyExtrinsic_eq (d : Dimension) (e : ChromaticExtrinsic) : simplifyExtrinsic d e = .ok (inDim d e) := by
  unfold simplifyExtrinsic
  rw [C09_simplify_total]
  rfl

theorem simplify_list (d : Dimension) (l : List ChromaticExtrinsic) : l.mapM (simplifyExtrinsic d) = .ok (l.map (inDim d)) :=
  mapM_ok_map fun a _ => simplifyExtrinsic_eq d a

/-- The entry computed for one name. -/
def entry (b : Build) (ho : HashOrder) (olds news : List ChromaticExtrinsic) (params : CompareParams) (p : Str × Str) :
    Res ExtrinsicDiff := do
  let change ← diffOne b ho (olds.map (inDim params.unit)) (news.map (inDim params.unit)) params p.1 p.2
  Res.ok { name := p.2, file := p.1, change := change }

/-- The names compared before filtering. -/
def namesOf (olds news : List ChromaticExtrinsic) : List (Str × Str) :=
  setOfList cmpPair ((olds ++ news).map fun e => (e.pallet, e.name))

theorem compareFiles_eq (b : Build) (ho : HashOrder) (rx : RegexEngine) (olds news : List ChromaticExtrinsic) (params : CompareParams)
    (filter : FilterParams) :
    compareFiles b ho rx olds news params filter = (do
      let er ← rx.compileOpt filter.extrinsic
      let pr ← rx.compileOpt filter.pallet
      ((namesOf olds news).filter fun p => regexMatches pr p.1 && regexMatches er p.2).mapM (entry b ho olds news params)) := by
  unfold compareFiles namesOf
  simp only [simplify_list, Res.bind_ok]
  have : allNames (olds.map (inDim params.unit)) (news.map (inDim params.unit))
      = setOfList cmpPair ((olds ++ news).map fun e => (e.pallet, e.name)) := by
    unfold allNames
    rw [List.map_map, List.map_map, List.map_append]
    rfl
  rw [this]
  rfl

theorem compileOpt_matches {rx : RegexEngine} {o : Option Str} {r : Option (Str → Option Bool)} (h : rx.compileOpt o = .ok r) (s : Str) :
    regexMatches r s = true ↔ Passes rx o s := by
  cases o with
  | none =>
    simp only [RegexEngine.compileOpt] at h
    injection h with h
    subst h
    simp [regexMatches, Passes]
  | some q =>
    simp only [RegexEngine.compileOpt] at h
    cases hc : rx.compile q with
    | none => rw [hc] at h; cases h
    | some m =>
      rw [hc] at h
      injection h with h
      subst h
      simp only [regexMatches, Passes, Option.some.injEq]
      constructor
      · intro hm q' hq
        subst hq
        refine ⟨m, hc, ?_⟩
        cases hms : m s with
        | none => rw [hms] at hm; cases hm
        | some v => rw [hms, Option.getD_some] at hm; rw [hm]
      · intro hm
        obtain ⟨m', h1, h2⟩ := hm q rfl
        rw [hc] at h1
        injection h1 with h1
        rw [h1, h2]
        rfl

theorem cmpPair_before {a c : Str × Str} : cmpPair a c = .lt ↔ Before a c := by
  unfold cmpPair Before
  rw [Ordering.then_eq_lt, cmpStr_lt, cmpStr_lt, cmpStr_eq]

theorem mem_namesOf {olds news : List ChromaticExtrinsic} {p e : Str} : (p, e) ∈ namesOf olds news ↔ Present olds news p e := by
  unfold namesOf Present Named
  rw [mem_setOfList, List.mem_map]
  simp only [List.mem_append, Prod.mk.injEq]

theorem findExtrinsic_first {d : Dimension} {l : List ChromaticExtrinsic} {p e : Str} :
    ∃ o, FirstOf l p e o ∧ findExtrinsic (l.map (inDim d)) p e = o.map (inDim d) := by
  unfold findExtrinsic
  induction l with
  | nil => exact ⟨none, by simp [FirstOf], rfl⟩
  | cons x l ih =>
    rw [List.map_cons, List.find?_cons]
    by_cases h : Named p e x
    · refine ⟨some x, ⟨h, [], l, rfl, by simp⟩, ?_⟩
      have : ((inDim d x).name == e && (inDim d x).pallet == p) = true := by
        simp [inDim, h.1, h.2]
      rw [this]
      rfl
    · have : ((inDim d x).name == e && (inDim d x).pallet == p) = false := by
        rw [Bool.and_eq_false_iff]
        by_cases h1 : x.name = e
        · right
          have : x.pallet ≠ p := fun h2 => h ⟨h2, h1⟩
          simpa [inDim] using this
        · left
          simpa [inDim] using h1
      rw [this]
      obtain ⟨o, h1, h2⟩ := ih
      refine ⟨o, ?_, h2⟩
      cases o with
      | none =>
        intro y hy
        rcases List.mem_cons.1 hy with rfl | hy
        · exact h
        · exact h1 y hy
      | some y =>
        obtain ⟨hn, l1, l2, e1, e2⟩ := h1
        refine ⟨hn, x :: l1, l2, by rw [e1]; rfl, ?_⟩
        intro z hz
        rcases List.mem_cons.1 hz with rfl | hz
        · exact h
        · exact e2 z hz

theorem firstOf_unique {l : List ChromaticExtrinsic} {p e : Str} {o o' : Option ChromaticExtrinsic} (h : FirstOf l p e o)
    (h' : FirstOf l p e o') : o = o' := by
  have hsome : ∀ {l : List ChromaticExtrinsic} {x : ChromaticExtrinsic}, FirstOf l p e (some x) → x ∈ l ∧ Named p e x := by
    rintro l x ⟨hn, l1, l2, e, _⟩
    exact ⟨by rw [e]; simp, hn⟩
  cases o with
  | none =>
    cases o' with
    | none => rfl
    | some y => exact absurd (hsome h').2 (h y (hsome h').1)
  | some x =>
    cases o' with
    | none => exact absurd (hsome h).2 (h' x (hsome h).1)
    | some y =>
      obtain ⟨hx, l1, l2, e1, a1⟩ := h
      obtain ⟨hy, l3, l4, e2, a2⟩ := h'
      rw [e1] at e2
      have hlen : l1.length = l3.length := by
        rcases Nat.lt_trichotomy l1.length l3.length with hlt | heq | hlt
        · exfalso
          have g1 : (l1 ++ x :: l2)[l1.length]? = some x := by simp
          rw [e2, List.getElem?_append_left hlt] at g1
          exact a2 x (List.mem_of_getElem? g1) hx
        · exact heq
        · exfalso
          have g1 : (l3 ++ y :: l4)[l3.length]? = some y := by simp
          rw [← e2, List.getElem?_append_left hlt] at g1
          exact a1 y (List.mem_of_getElem? g1) hy
      obtain ⟨_, e3⟩ := List.append_inj e2 hlen
      injection e3 with e3
      rw [e3]

/-- `diffOne` in terms of the first matches. -/
theorem entry_eq {olds news : List ChromaticExtrinsic} {params : CompareParams} {p e : Str}
    {o n : Option ChromaticExtrinsic} (h1 : FirstOf olds p e o) (h2 : FirstOf news p e n) :
    findExtrinsic (olds.map (inDim params.unit)) p e = o.map (inDim params.unit) ∧
    findExtrinsic (news.map (inDim params.unit)) p e = n.map (inDim params.unit) := by
  obtain ⟨o', a1, a2⟩ := findExtrinsic_first (d := params.unit) (l := olds) (p := p) (e := e)
  obtain ⟨n', b1, b2⟩ := findExtrinsic_first (d := params.unit) (l := news) (p := p) (e := e)
  rw [firstOf_unique h1 a1, firstOf_unique h2 b1]
  exact ⟨a2, b2⟩

/-! ### C32 -/

/-- The result of a successful comparison. -/
theorem compareFiles_ok {b : Build} {ho : HashOrder} {rx : RegexEngine} {olds news : List ChromaticExtrinsic} {params : CompareParams}
    {filter : FilterParams} {diff : List ExtrinsicDiff} (h : compareFiles b ho rx olds news params filter = .ok diff) :
    ∃ names : List (Str × Str), SortedBy cmpPair names ∧
      (∀ p e, (p, e) ∈ names ↔ Present olds news p e ∧ Selected rx filter p e) ∧
      List.Forall₂ (fun p d => entry b ho olds news params p = .ok d) names diff := by
  rw [compareFiles_eq] at h
  cases he : rx.compileOpt filter.extrinsic with
  | ok er =>
    cases hp : rx.compileOpt filter.pallet with
    | ok pr =>
      rw [he, hp] at h
      simp only [Res.bind_ok] at h
      refine ⟨_, ?_, ?_, mapM_ok_iff.1 h⟩
      · exact List.Pairwise.filter _ (sorted_setOfList _)
      · intro p e
        rw [List.mem_filter, mem_namesOf, Bool.and_eq_true, compileOpt_matches hp, compileOpt_matches he]
        rfl
    | err m => rw [he, hp] at h; cases h
    | panic => rw [he, hp] at h; cases h
    | diverge => rw [he, hp] at h; cases h
  | err m => rw [he] at h; cases h
  | panic => rw [he] at h; cases h
  | diverge => rw [he] at h; cases h

theorem entry_name {b : Build} {ho : HashOrder} {olds news : List ChromaticExtrinsic} {params : CompareParams} {p : Str × Str}
    {d : ExtrinsicDiff} (h : entry b ho olds news params p = .ok d) :
    (d.file, d.name) = p ∧ diffOne b ho (olds.map (inDim params.unit)) (news.map (inDim params.unit)) params p.1 p.2 = .ok d.change := by
  unfold entry at h
  cases hd : diffOne b ho (olds.map (inDim params.unit)) (news.map (inDim params.unit)) params p.1 p.2 with
  | ok c =>
    rw [hd] at h
    simp only [Res.bind_ok] at h
    injection h with h
    subst h
    exact ⟨rfl, rfl⟩
  | err m => rw [hd] at h; cases h
  | panic => rw [hd] at h; cases h
  | diverge => rw [hd] at h; cases h

theorem names_map {b : Build} {ho : HashOrder} {olds news : List ChromaticExtrinsic} {params : CompareParams}
    {names : List (Str × Str)} {diff : List ExtrinsicDiff}
    (h : List.Forall₂ (fun p d => entry b ho olds news params p = .ok d) names diff) :
    diff.map (fun d => (d.file, d.name)) = names := by
  induction h with
  | nil => rfl
  | cons h1 _ ih => rw [List.map_cons, ih, (entry_name h1).1]

/-- C32: the report has, in strictly ascending order by file and name, one entry for exactly those pairs of file and name that occur in the
old or the new version and pass the filters. -/
theorem C32_exactly_once (b : Build) (ho : HashOrder) (rx : RegexEngine) (olds news : List ChromaticExtrinsic) (params : CompareParams)
    (filter : FilterParams) (diff : List ExtrinsicDiff) (h : compareFiles b ho rx olds news params filter = .ok diff) :
    (diff.map fun d => (d.file, d.name)).Pairwise Before ∧
    ∀ p e, (∃ d ∈ diff, d.file = p ∧ d.name = e) ↔ Present olds news p e ∧ Selected rx filter p e := by
  obtain ⟨names, hs, hm, hf⟩ := compareFiles_ok h
  have hn := names_map hf
  constructor
  · rw [hn]
    exact List.Pairwise.imp (fun h => cmpPair_before.1 h) hs
  · intro p e
    rw [← hm p e, ← hn, List.mem_map]
    simp only [Prod.mk.injEq]

/-- C32: in a release build the comparison only fails for an invalid pattern. -/
theorem C32_total (ho : HashOrder) (rx : RegexEngine) (olds news : List ChromaticExtrinsic) (params : CompareParams)
    (filter : FilterParams) :
    (∃ diff, compareFiles .release ho rx olds news params filter = .ok diff) ∨
    ((∃ m, compareFiles .release ho rx olds news params filter = .err m) ∧
      ∃ q, (filter.pallet = some q ∨ filter.extrinsic = some q) ∧ rx.compile q = none) := by
  have hcomp : ∀ o : Option Str, (∃ r, rx.compileOpt o = .ok r) ∨ ((∃ m, rx.compileOpt o = .err m) ∧ ∃ q, o = some q ∧ rx.compile q = none) := by
    intro o
    cases o with
    | none => exact .inl ⟨_, rfl⟩
    | some q =>
      simp only [RegexEngine.compileOpt]
      cases hc : rx.compile q with
      | none => exact .inr ⟨⟨_, rfl⟩, q, rfl, hc⟩
      | some m => exact .inl ⟨_, rfl⟩
  rw [compareFiles_eq]
  rcases hcomp filter.extrinsic with ⟨er, he⟩ | ⟨⟨m, he⟩, q, hq, hc⟩
  · rcases hcomp filter.pallet with ⟨pr, hp⟩ | ⟨⟨m, hp⟩, q, hq, hc⟩
    · left
      rw [he, hp]
      simp only [Res.bind_ok]
      apply mapM_ok_of_forall
      rintro ⟨p, e⟩ hpe
      have hpres := mem_namesOf.1 (List.mem_filter.1 hpe).1
      obtain ⟨o, h1, _⟩ := findExtrinsic_first (d := params.unit) (l := olds) (p := p) (e := e)
      obtain ⟨n, h2, _⟩ := findExtrinsic_first (d := params.unit) (l := news) (p := p) (e := e)
      obtain ⟨e1, e2⟩ := entry_eq (params := params) h1 h2
      have hne : o.map (inDim params.unit) ≠ none ∨ n.map (inDim params.unit) ≠ none := by
        obtain ⟨x, hx | hx, hn⟩ := hpres
        · left
          cases o with
          | none => exact absurd hn (h1 x hx)
          | some y => simp
        · right
          cases n with
          | none => exact absurd hn (h2 x hx)
          | some y => simp
      have hd : ∃ c, diffOne .release ho (olds.map (inDim params.unit)) (news.map (inDim params.unit)) params p e = .ok c := by
        unfold diffOne
        simp only [e1, e2]
        by_cases hr : Refused params.method (o.map (inDim params.unit)) (n.map (inDim params.unit))
        · obtain ⟨m, hm⟩ := (C26_total_release ho _ _ params hne).1 hr
          rw [hm]
          exact ⟨_, rfl⟩
        · obtain ⟨c, hc⟩ := (C26_total_release ho _ _ params hne).2 hr
          rw [hc]
          cases hx : (n.map (inDim params.unit)).or (o.map (inDim params.unit)) with
          | none =>
            rw [Option.or_eq_none_iff] at hx
            rcases hne with h | h
            · exact absurd hx.2 h
            · exact absurd hx.1 h
          | some x =>
            dsimp only
            cases hs : sanityCheckTerm x.term with
            | ok => exact ⟨_, rfl⟩
            | err m => exact ⟨_, rfl⟩
            | panic => rw [(C15_flags_iff x.term).2 (by rw [hs]; simp)] at hs; cases hs
            | diverge => rw [(C15_flags_iff x.term).2 (by rw [hs]; simp)] at hs; cases hs
      obtain ⟨c, hc⟩ := hd
      exact ⟨_, by rw [entry, hc]; rfl⟩
    · right
      rw [he, hp]
      exact ⟨⟨_, rfl⟩, q, .inl hq, hc⟩
  · right
    rw [he]
    exact ⟨⟨_, rfl⟩, q, .inr hq, hc⟩

/-! ### C33 -/

namespace Spec

/-- The equation that is sanity-checked (the new one, if there is one) has a storage factor above 1000 (C15). -/
def Flagged (old new : Option SimpleExtrinsic) : Prop :=
  ∃ x k, (new = some x ∨ (new = none ∧ old = some x)) ∧ 1000 < k ∧ (Factor (str% "READ") k x.term ∨ Factor (str% "WRITE") k x.term)

/-- `c` is the right report for two versions of a call: an error if they could not be compared, else the comparison, with a warning if the
equation is flagged. -/
def EntryFor (b : Build) (ho : HashOrder) (params : CompareParams) (old new : Option SimpleExtrinsic) (c : TermDiff) : Prop :=
  (∃ m, compareExtrinsics b ho old new params = .err m ∧ c = .failed m) ∨
  (∃ r, compareExtrinsics b ho old new params = .ok r ∧ ((¬ Flagged old new ∧ c = .changed r) ∨ (Flagged old new ∧ ∃ m, c = .warning r m)))

end Spec

theorem diffOne_entry {b : Build} {ho : HashOrder} {olds news : List ChromaticExtrinsic} {params : CompareParams} {p e : Str}
    {o n : Option ChromaticExtrinsic} (h1 : FirstOf olds p e o) (h2 : FirstOf news p e n) {c : TermDiff}
    (h : diffOne b ho (olds.map (inDim params.unit)) (news.map (inDim params.unit)) params p e = .ok c) :
    EntryFor b ho params (o.map (inDim params.unit)) (n.map (inDim params.unit)) c := by
  obtain ⟨e1, e2⟩ := entry_eq (params := params) h1 h2
  unfold diffOne at h
  simp only [e1, e2] at h
  generalize o.map (inDim params.unit) = old at h ⊢
  generalize n.map (inDim params.unit) = new at h ⊢
  cases hc : compareExtrinsics b ho old new params with
  | ok r =>
    rw [hc] at h
    dsimp only at h
    right
    refine ⟨r, hc, ?_⟩
    cases hx : new.or old with
    | none => rw [hx] at h; cases h
    | some x =>
      rw [hx] at h
      dsimp only at h
      have hxx : new = some x ∨ (new = none ∧ old = some x) := by
        cases new with
        | some y => left; exact hx
        | none => right; exact ⟨rfl, hx⟩
      have hfl : Flagged old new ↔ ∃ m, sanityCheckTerm x.term = .err m := by
        rw [(C15_flags_iff x.term).1]
        constructor
        · rintro ⟨y, k, hy, hk, hf⟩
          have : y = x := by
            rcases hxx with hx | ⟨hx, hx'⟩ <;> rcases hy with hy | ⟨hy, hy'⟩
            · rw [hx] at hy; injection hy with hy; exact hy.symm
            · rw [hx] at hy; cases hy
            · rw [hx] at hy; cases hy
            · rw [hx'] at hy'; injection hy' with hy'; exact hy'.symm
          rw [this] at hf
          exact ⟨k, hk, hf⟩
        · rintro ⟨k, hk, hf⟩
          exact ⟨x, k, hxx, hk, hf⟩
      cases hs : sanityCheckTerm x.term with
      | ok u =>
        rw [hs] at h hfl
        injection h with h
        exact .inl ⟨by rw [hfl]; simp, h.symm⟩
      | err m =>
        rw [hs] at h hfl
        injection h with h
        exact .inr ⟨hfl.2 ⟨m, rfl⟩, _, h.symm⟩
      | panic => rw [hs] at h; cases h
      | diverge => rw [hs] at h; cases h
  | err m =>
    rw [hc] at h
    injection h with h
    exact .inl ⟨m, hc, h.symm⟩
  | panic => rw [hc] at h; cases h
  | diverge => rw [hc] at h; cases h

/-- C33: every entry is the comparison of the first old and the first new call with its file and name. -/
theorem C33_right_pair (b : Build) (ho : HashOrder) (rx : RegexEngine) (olds news : List ChromaticExtrinsic) (params : CompareParams)
    (filter : FilterParams) (diff : List ExtrinsicDiff) (h : compareFiles b ho rx olds news params filter = .ok diff)
    (d : ExtrinsicDiff) (hd : d ∈ diff) :
    ∃ o n, FirstOf olds d.file d.name o ∧ FirstOf news d.file d.name n ∧
      EntryFor b ho params (o.map (inDim params.unit)) (n.map (inDim params.unit)) d.change := by
  obtain ⟨names, hs, hm, hf⟩ := compareFiles_ok h
  obtain ⟨p, hp, he⟩ := forall₂_mem_right hf hd
  obtain ⟨rfl, hc⟩ := entry_name he
  obtain ⟨o, h1, _⟩ := findExtrinsic_first (d := params.unit) (l := olds) (p := d.file) (e := d.name)
  obtain ⟨n, h2, _⟩ := findExtrinsic_first (d := params.unit) (l := news) (p := d.file) (e := d.name)
  exact ⟨o, n, h1, h2, diffOne_entry h1 h2 hc⟩

/-- C33: an entry depends on nothing else in the input: two inputs with the same first calls for a name have the same entry for it. -/
theorem C33_local (b : Build) (ho : HashOrder) (rx rx' : RegexEngine) (olds news olds' news' : List ChromaticExtrinsic)
    (params : CompareParams) (filter filter' : FilterParams) (diff diff' : List ExtrinsicDiff)
    (h : compareFiles b ho rx olds news params filter = .ok diff) (h' : compareFiles b ho rx' olds' news' params filter' = .ok diff')
    (p e : Str) (o n : Option ChromaticExtrinsic) (h1 : FirstOf olds p e o) (h2 : FirstOf news p e n) (h1' : FirstOf olds' p e o)
    (h2' : FirstOf news' p e n) (d d' : ExtrinsicDiff) (hd : d ∈ diff) (hd' : d' ∈ diff') (hn : d.file = p ∧ d.name = e)
    (hn' : d'.file = p ∧ d'.name = e) : d = d' := by
  obtain ⟨_, _, _, hf⟩ := compareFiles_ok h
  obtain ⟨_, _, _, hf'⟩ := compareFiles_ok h'
  obtain ⟨q, _, he⟩ := forall₂_mem_right hf hd
  obtain ⟨q', _, he'⟩ := forall₂_mem_right hf' hd'
  obtain ⟨rfl, hc⟩ := entry_name he
  obtain ⟨rfl, hc'⟩ := entry_name he'
  obtain ⟨nm, fl, c⟩ := d
  obtain ⟨nm', fl', c'⟩ := d'
  obtain ⟨rfl, rfl⟩ := hn
  obtain ⟨rfl, rfl⟩ := hn'
  obtain ⟨a1, a2⟩ := entry_eq (params := params) h1 h2
  obtain ⟨b1, b2⟩ := entry_eq (params := params) h1' h2'
  unfold diffOne at hc hc'
  dsimp only at *
  rw [a1, a2] at hc
  rw [b1, b2] at hc'
  rw [hc] at hc'
  injection hc' with hc'
  rw [hc']

/-! ### C34 -/

theorem firstOf_perm {l l' : List ChromaticExtrinsic} (hp : l.Perm l') (hn : NoDup l) {p e : Str} {o : Option ChromaticExtrinsic}
    (h : FirstOf l p e o) : FirstOf l' p e o := by
  cases o with
  | none => exact fun x hx => h x (hp.mem_iff.2 hx)
  | some x =>
    obtain ⟨hx, l1, l2, e1, _⟩ := h
    refine ⟨hx, ?_⟩
    have hmem : x ∈ l' := hp.mem_iff.1 (by rw [e1]; simp)
    obtain ⟨l3, l4, e2⟩ := List.append_of_mem hmem
    refine ⟨l3, l4, e2, ?_⟩
    intro y hy hny
    have hn' : NoDup l' := (hp.map _).nodup_iff.1 hn
    unfold NoDup at hn'
    rw [e2, List.map_append, List.map_cons, List.nodup_append] at hn'
    refine hn'.2.2 (y.pallet, y.name) (List.mem_map_of_mem hy) (x.pallet, x.name) List.mem_cons_self ?_
    rw [hny.1, hny.2, hx.1, hx.2]

/-- C34: if no call occurs twice in a version, the order of the calls does not matter. -/
theorem C34_order_irrelevant (b : Build) (ho : HashOrder) (rx : RegexEngine) (olds news olds' news' : List ChromaticExtrinsic)
    (params : CompareParams) (filter : FilterParams) (h1 : olds.Perm olds') (h2 : news.Perm news') (n1 : NoDup olds) (n2 : NoDup news) :
    compareFiles b ho rx olds news params filter = compareFiles b ho rx olds' news' params filter := by
  rw [compareFiles_eq, compareFiles_eq]
  have hnames : namesOf olds news = namesOf olds' news' := by
    apply sorted_ext (cmp := cmpPair) (sorted_setOfList _) (sorted_setOfList _)
    intro x
    rw [mem_setOfList, mem_setOfList]
    exact ((h1.append h2).map _).mem_iff
  have hentry : entry b ho olds news params = entry b ho olds' news' params := by
    funext p
    unfold entry diffOne
    obtain ⟨o, a1, a2⟩ := findExtrinsic_first (d := params.unit) (l := olds) (p := p.1) (e := p.2)
    obtain ⟨n, b1, b2⟩ := findExtrinsic_first (d := params.unit) (l := news) (p := p.1) (e := p.2)
    obtain ⟨c1, c2⟩ := entry_eq (params := params) (firstOf_perm h1 n1 a1) (firstOf_perm h2 n2 b1)
    simp only [a2, b2, c1, c2]
  rw [hnames, hentry]

/-! ### C36 -/

namespace Spec

/-- The magnitude of the percentage is below the threshold (never so for NaN and infinities). -/
def Below : F64 → F64 → Prop
  | .fin q, .fin t => |q| < t
  | .fin _, .pinf => True
  | _, _ => False

/-- The threshold is below (the double nearest to) 0.000001, or NaN. -/
def Tiny : F64 → Prop
  | .fin t => t < F64.rndQ (1 / 1000000)
  | .pinf => False
  | _ => True

/-- The entry is relevant for the filter. -/
def Kept (f : FilterParams) (e : ExtrinsicDiff) : Prop :=
  (∃ m, e.change = .failed m) ∨
  ∃ c, (e.change = .changed c ∨ ∃ m, e.change = .warning c m) ∧
    (∀ s, f.change = some s → c.change ∈ s) ∧
    (c.change = .added ∨ c.change = .removed ∨ (c.change = .changed ∧ ¬ Below c.percent f.threshold) ∨
      (c.change = .unchanged ∧ Tiny f.threshold))

end Spec

theorem included_iff {f : FilterParams} {c : RelativeChange} : f.included c = true ↔ ∀ s, f.change = some s → c ∈ s := by
  unfold FilterParams.included
  cases f.change with
  | none => simp
  | some s => simp

theorem below_iff {p t : F64} : F64.lt (F64.abs p) t = true ↔ Below p t := by
  cases p <;> cases t <;> simp [F64.lt, F64.abs, Below]

theorem le_fin' {a b : ℚ} : F64.le (.fin a) (.fin b) = true ↔ a ≤ b := F64.le_fin

theorem tiny_iff {t : F64} : F64.le (F64.rnd (1 / 1000000)) t = false ↔ Tiny t := by
  rw [F64.rnd_fin]
  · cases t with
    | fin t =>
      rw [← Bool.not_eq_true, le_fin', _root_.not_le]
      exact Iff.rfl
    | _ => simp [F64.le, F64.lt, F64.feq, Tiny]
  · rw [abs_of_nonneg (by norm_num)]
    calc (1 / 1000000 : ℚ) ≤ 2 ^ 0 := by norm_num
      _ < 2 ^ 1023 := pow_lt_pow_right₀ (by norm_num) (by norm_num)

theorem keepChange_iff {f : FilterParams} {e : ExtrinsicDiff} : keepChange f e = true ↔ Kept f e := by
  have key : ∀ c : TermChange,
      (if !f.included c.change then false
       else match c.change with
        | .changed => !(F64.lt (F64.abs c.percent) f.threshold)
        | .unchanged => !(F64.le (F64.rnd (1 / 1000000)) f.threshold)
        | _ => true) = true ↔
      (∀ s, f.change = some s → c.change ∈ s) ∧
      (c.change = .added ∨ c.change = .removed ∨ (c.change = .changed ∧ ¬ Below c.percent f.threshold) ∨
        (c.change = .unchanged ∧ Tiny f.threshold)) := by
    intro c
    rw [← included_iff, ← below_iff, ← tiny_iff]
    cases f.included c.change <;> cases c.change <;> simp
  unfold keepChange Kept
  cases he : e.change with
  | failed m => simp
  | changed c => exact (key c).trans (by simp)
  | warning c m => exact (key c).trans (by simp)

/-- C36: the filter keeps exactly the relevant entries, in order and unchanged. -/
theorem C36_keeps_exactly (diff : List ExtrinsicDiff) (f : FilterParams) :
    ∃ p : ExtrinsicDiff → Bool, (∀ e, p e = true ↔ Kept f e) ∧ filterChanges diff f = diff.filter p :=
  ⟨keepChange f, fun _ => keepChange_iff, rfl⟩

/-- C36: errors are never filtered out. -/
theorem C36_keeps_errors (diff : List ExtrinsicDiff) (f : FilterParams) (e : ExtrinsicDiff) (m : Str) (h : e ∈ diff)
    (he : e.change = .failed m) : e ∈ filterChanges diff f :=
  List.mem_filter.2 ⟨h, keepChange_iff.2 (.inl ⟨m, he⟩)⟩

/-- C36: filtering twice is filtering once. -/
theorem C36_idempotent (diff : List ExtrinsicDiff) (f : FilterParams) : filterChanges (filterChanges diff f) f = filterChanges diff f := by
  unfold filterChanges
  rw [List.filter_filter]
  simp

/-- C36: a higher threshold keeps a part of what a lower one keeps. -/
theorem C36_threshold_monotone (diff : List ExtrinsicDiff) (f f' : FilterParams) (hc : f'.change = f.change)
    (ht : F64.le f.threshold f'.threshold = true) : (filterChanges diff f').Sublist (filterChanges diff f) := by
  have hmono : ∀ e, Kept f' e → Kept f e := by
    have hb : ∀ p, Below p f.threshold → Below p f'.threshold := by
      intro p
      cases p <;> cases ha : f.threshold <;> cases hb : f'.threshold <;> rw [ha, hb] at ht <;>
        first
        | (intro h; exact h.elim)
        | (intro _; trivial)
        | exact absurd ht (by decide)
        | (intro h; rw [le_fin'] at ht; exact _root_.lt_of_lt_of_le h ht)
        | (simp [F64.le, F64.lt, F64.feq] at ht)
    have hti : Tiny f'.threshold → Tiny f.threshold := by
      cases ha : f.threshold <;> cases hb : f'.threshold <;> rw [ha, hb] at ht <;>
        first
        | (intro h; exact h.elim)
        | (intro _; trivial)
        | (intro h; rw [le_fin'] at ht; exact _root_.lt_of_le_of_lt ht h)
        | (simp [F64.le, F64.lt, F64.feq] at ht)
    rintro e (h | ⟨c, h1, h2, h3⟩)
    · exact .inl h
    · refine .inr ⟨c, h1, ?_, ?_⟩
      · rw [← hc]; exact h2
      · rcases h3 with h | h | ⟨h, h'⟩ | ⟨h, h'⟩
        · exact .inl h
        · exact .inr (.inl h)
        · exact .inr (.inr (.inl ⟨h, fun hh => h' (hb _ hh)⟩))
        · exact .inr (.inr (.inr ⟨h, hti h'⟩))
  have : filterChanges diff f' = (filterChanges diff f).filter (keepChange f') := by
    unfold filterChanges
    rw [List.filter_filter]
    apply List.filter_congr
    intro e _
    by_cases h : keepChange f' e = true
    · rw [h, keepChange_iff.2 (hmono e (keepChange_iff.1 h))]; rfl
    · rw [Bool.not_eq_true] at h; rw [h]; rfl
  rw [this]
  exact List.filter_sublist

/-! ### C35 -/

/-- C35: comparing a version with itself reports only errors and Unchanged, and an unchanged call has the same value on both sides. -/
theorem C35_self_unchanged (b : Build) (ho : HashOrder) (rx : RegexEngine) (l : List ChromaticExtrinsic) (params : CompareParams)
    (filter : FilterParams) (diff : List ExtrinsicDiff) (h : compareFiles b ho rx l l params filter = .ok diff) (d : ExtrinsicDiff)
    (hd : d ∈ diff) :
    (∃ m, d.change = .failed m) ∨ ∃ r v, (d.change = .changed r ∨ ∃ m, d.change = .warning r m) ∧ r.change = .unchanged ∧
      r.oldV = some v ∧ r.newV = some v ∧ r.percent = percent v v := by
  obtain ⟨o, n, h1, h2, he⟩ := C33_right_pair b ho rx l l params filter diff h d hd
  cases firstOf_unique h1 h2
  rcases he with ⟨m, _, hm⟩ | ⟨r, hr, hc⟩
  · exact .inl ⟨m, hm⟩
  · right
    have hne := compareExtrinsics_not_none hr
    cases o with
    | none => simp at hne
    | some x =>
      rw [Option.map_some] at hr
      obtain ⟨_, ⟨_, ⟨v, e1, f1⟩, ⟨w, e2, f2⟩, hp⟩, _⟩ := C25_reported_is_corner b ho _ _ params r hr
      obtain ⟨_, _, hk, _⟩ := C27_kinds b ho _ _ params r hr
      rw [f1] at f2
      injection f2 with f2
      subst f2
      refine ⟨r, v, ?_, hk.2 ⟨_, _, rfl, rfl, rfl⟩, e1, e2, by rw [hp, e1, e2]; rfl⟩
      rcases hc with ⟨_, hc⟩ | ⟨_, hc⟩
      · exact .inl hc
      · exact .inr hc

/-- C35: with a threshold of at least 0.000001 only errors remain. -/
theorem C35_self_filtered (b : Build) (ho : HashOrder) (rx : RegexEngine) (l : List ChromaticExtrinsic) (params : CompareParams)
    (filter f : FilterParams) (diff : List ExtrinsicDiff) (h : compareFiles b ho rx l l params filter = .ok diff)
    (ht : ¬ Tiny f.threshold) (d : ExtrinsicDiff) (hd : d ∈ filterChanges diff f) : ∃ m, d.change = .failed m := by
  obtain ⟨p, hp, e⟩ := C36_keeps_exactly diff f
  rw [e, List.mem_filter, hp] at hd
  rcases C35_self_unchanged b ho rx l params filter diff h d hd.1 with hm | ⟨r, v, hr, hu, _⟩
  · exact hm
  · rcases hd.2 with hm | ⟨c, hc, _, hk⟩
    · exact hm
    · have : c = r := by
        rcases hc with hc | ⟨_, hc⟩ <;> rcases hr with hr | ⟨_, hr⟩ <;> rw [hc] at hr <;> cases hr <;> rfl
      subst this
      rw [hu] at hk
      simp [ht] at hk

/-! ### A concrete run -/

/-- A regular expression engine that knows one pattern. -/
def exRegex : RegexEngine := ⟨fun q => if q = str% "b" then some (fun s => some (s == str% "b")) else none, fun _ => str% "bad"⟩

/-- A call of the file `p`. -/
def exExtr (p e : Str) (t : ChromaticTerm) : ChromaticExtrinsic := { name := e, pallet := p, term := t, compRanges := none }

/-- Old version: `b::f` twice and `a::g`. -/
def exOlds : List ChromaticExtrinsic :=
  [exExtr (str% "b") (str% "f") (.value ⟨10, 1⟩), exExtr (str% "a") (str% "g") (.value ⟨5, 1⟩), exExtr (str% "b") (str% "f") (.value ⟨77, 1⟩)]

/-- New version: `b::f` and `b::h`, the latter with 1001 reads. -/
def exNews : List ChromaticExtrinsic :=
  [exExtr (str% "b") (str% "h") (.mul (.scalar 1001) (.var (str% "READ"))), exExtr (str% "b") (str% "f") (.value ⟨20, 1⟩)]

/-- No filter. -/
def exFilter : FilterParams := ⟨.fin 0, none, none, none⟩

/-- Summary of an entry for the examples. -/
structure ExRow where
  file : Str
  name : Str
  oldV : Option Nat
  newV : Option Nat
  change : Option RelativeChange
  warning : Bool
  deriving DecidableEq

/-- Summary of an entry for the examples. -/
def exShow (d : ExtrinsicDiff) : ExRow :=
  ⟨d.file, d.name, d.term.bind (·.oldV), d.term.bind (·.newV), d.term.map (·.change), d.warning.isSome⟩

example : (compareFiles .release idOrder exRegex exOlds exNews (exParams .base .time) exFilter).map (List.map exShow) =
    .ok [⟨str% "a", str% "g", some 5, none, some .removed, false⟩,
         ⟨str% "b", str% "f", some 10, some 20, some .changed, false⟩,
         ⟨str% "b", str% "h", none, some 25025000000, some .added, true⟩] := by decide +kernel

example : (compareFiles .release idOrder exRegex exOlds exNews (exParams .base .time) { exFilter with pallet := some (str% "b") }).map
    (List.map exShow) =
    .ok [⟨str% "b", str% "f", some 10, some 20, some .changed, false⟩,
         ⟨str% "b", str% "h", none, some 25025000000, some .added, true⟩] := by decide +kernel

example : compareFiles .release idOrder exRegex exOlds exNews (exParams .base .time) { exFilter with pallet := some (str% "c") } =
    .err (str% "bad") := by decide +kernel

/-- Both versions without duplicates: the hypotheses of C34. -/
example : NoDup exNews ∧ ¬ NoDup exOlds := by unfold NoDup; decide

example : (compareFiles .release idOrder exRegex exNews exNews (exParams .base .time) exFilter).map (fun d =>
    (d.map exShow, (filterChanges d { exFilter with threshold := .fin 1 }).length)) =
    .ok ([⟨str% "b", str% "f", some 20, some 20, some .unchanged, false⟩,
         ⟨str% "b", str% "h", some 25025000000, some 25025000000, some .unchanged, true⟩], 0) := by decide +kernel

/-- A NaN percentage (0 against 0) passes every threshold. -/
example : filterChanges [⟨str% "f", str% "p", .changed
      { old := none, oldV := some 0, new := none, newV := some 0, scope := [], percent := .nan, change := .changed, method := .base }⟩]
    { exFilter with threshold := .fin 1000000 } ≠ [] := by decide +kernel

end Swc
