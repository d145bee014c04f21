/-
C115, continued: equations are not larger than the texts they are read from, so that an evaluation takes at most twice as many steps as the file has characters.
-/
import Verif.Lemmas.TextSize
import Verif.Props.Cost

namespace Swc

open Spec Term

/-! ### From expressions to equations -/

theorem parts_intoChromatic (d : Dimension) (t : SimpleTerm) : parts (intoChromatic d t) = parts t := by
  induction t with
  | value => rfl
  | scalar => rfl
  | var => rfl
  | add _ _ ih1 ih2 => rw [intoChromatic, parts, parts, ih1, ih2]
  | mul _ _ ih1 ih2 => rw [intoChromatic, parts, parts, ih1, ih2]

theorem parts_project (d : Dimension) (t : ChromaticTerm) : parts (project d t) = parts t := by
  induction t with
  | value => rfl
  | scalar => rfl
  | var => rfl
  | add _ _ ih1 ih2 => rw [project, parts, parts, ih1, ih2]
  | mul _ _ ih1 ih2 => rw [project, parts, parts, ih1, ih2]

theorem parts_pos {T : Type} (t : Term T) : 1 ≤ parts t := by
  cases t <;> simp [parts]

theorem height_le_parts {T : Type} (t : Term T) : height t ≤ parts t := by
  induction t with
  | value => exact Nat.le_refl _
  | scalar => exact Nat.le_refl _
  | var => exact Nat.le_refl _
  | add l r ih1 ih2 => have := parts_pos l; have := parts_pos r; simp only [height, parts]; omega
  | mul l r ih1 ih2 => have := parts_pos l; have := parts_pos r; simp only [height, parts]; omega

theorem parts_substitute {T : Type} (x : Str) (u t : Term T) (hu : parts u ≤ 2) : parts (substitute x u t) ≤ parts t := by
  induction t with
  | value => exact Nat.le_refl _
  | scalar => exact Nat.le_refl _
  | var y =>
    rw [substitute]
    split
    · exact hu
    · exact Nat.le_refl _
  | add _ _ ih1 ih2 => simp only [substitute, parts]; omega
  | mul _ _ ih1 ih2 => simp only [substitute, parts]; omega

theorem parts_dropStorage (d : Dimension) (e : SimpleExtrinsic) : parts (dropStorage d e).term ≤ parts e.term := by
  cases d with
  | time => exact Nat.le_refl _
  | proof =>
    exact Nat.le_trans (parts_substitute _ _ _ (by simp [parts])) (parts_substitute _ _ _ (by simp [parts]))

theorem parts_spliceAdd (s t : ChromaticTerm) : parts (spliceAdd s t) ≤ parts s + parts t + 1 := by
  induction s generalizing t with
  | add a c ih1 ih2 =>
    cases t with
    | add a' c' =>
      have h1 := ih1 a'
      have h2 := ih2 c'
      simp only [spliceAdd, parts]
      omega
    | _ => simp only [spliceAdd, parts]; omega
  | value x =>
    cases t with
    | value y =>
      rw [spliceAdd]
      split
      · simp [parts]
      · split <;> simp [parts]
    | _ => simp only [spliceAdd, parts]; omega
  | _ => simp only [spliceAdd, parts]; omega

theorem parts_reads1 {e : Expr} {t : SimpleTerm} (h : Reads1 e t) : parts t ≤ 2 * pieces e := by
  induction h with
  | lit | name => simp [parts, pieces]
  | cast _ ih | paren _ ih | refTime _ _ ih | into _ ih => simp only [pieces]; omega
  | reads hd _ ih | writes hd _ ih =>
    obtain ⟨_, _, rfl, _⟩ := hd
    simp only [parts, pieces, piecesAll]; omega
  | add _ _ ih1 ih2 | mul _ _ ih1 ih2 => simp only [parts, pieces, piecesAll]; omega
  | fromRefTime _ _ ih => simp only [pieces, piecesAll]; omega
  | zero => simp only [parts, pieces]; omega

theorem parts_countOf {a : Expr} {t : ChromaticTerm} (h : CountOf a t) : parts t ≤ 2 * pieces a := by
  rcases h with ⟨l, n, rfl, _, rfl⟩ | ⟨_, s, hs, rfl⟩
  · simp [parts, pieces]
  · rw [parts_intoChromatic]; exact parts_reads1 hs

theorem parts_reads2 {e : Expr} {t : ChromaticTerm} (h : Reads2 e t) : parts t ≤ 2 * pieces e := by
  induction h with
  | name => simp [parts, pieces]
  | cast _ ih | paren _ ih | into _ ih => simp only [pieces]; omega
  | reads hd hc | writes hd hc =>
    obtain ⟨_, _, rfl, _⟩ := hd
    have := parts_countOf hc
    simp only [parts, pieces, piecesAll]; omega
  | add _ _ ih1 ih2 | mul _ _ ih1 ih2 => simp only [parts, pieces, piecesAll]; omega
  | fromRefTime _ h | fromProofSize _ h =>
    have := parts_reads1 h
    rw [parts_intoChromatic]
    simp only [pieces, piecesAll]; omega
  | fromParts _ h1 h2 =>
    have k1 := parts_reads1 h1
    have k2 := parts_reads1 h2
    refine Nat.le_trans (parts_spliceAdd _ _) ?_
    rw [parts_intoChromatic, parts_intoChromatic]
    simp only [pieces, piecesAll]; omega
  | zero => simp only [parts, pieces]; omega

/-- C115: the equation of a function has at most twice as many parts as its expression in the source. -/
theorem C115_pieces {e : Expr} {t : ChromaticTerm} (h : ReadsBody e t) : parts t ≤ 2 * pieces e := by
  rcases h with h | ⟨_, _, s, hs, rfl⟩
  · exact parts_reads2 h
  · rw [parts_intoChromatic]; exact parts_reads1 hs

/-! ### From texts to equations -/

theorem parts_functions {cc : CharClass} {pallet : Str} {fs : List ImplFn} {exts : List ChromaticExtrinsic} (h : List.Forall₂ (Yields cc pallet) fs exts) :
    (exts.map fun x => parts x.term).sum ≤ 2 * TextSize.fnPieces fs := by
  induction h with
  | nil => simp [TextSize.fnPieces]
  | cons hy _ ih =>
    obtain ⟨_, _, _, ⟨e, he, hb⟩, _⟩ := hy
    have := C115_pieces hb
    simp only [List.map_cons, List.sum_cons, TextSize.fnPieces, he, TextSize.stmtPieces] at *
    omega

/-- C115: all equations of a file together have at most twice as many parts as the file has characters. -/
theorem C115_linear {cc : CharClass} {pallet s : Str} {exts : List ChromaticExtrinsic} (h : parseContent rustSyn cc pallet s = .ok exts) :
    (exts.map fun x => parts x.term).sum ≤ 2 * s.length := by
  obtain ⟨pre, i, post, hs, ⟨ty, items, rfl, _, _, hy⟩, hp⟩ := (C108_file _ _ _ _ _).1 h
  have h1 := TextSize.rustSyn_le hs
  have h2 := parts_functions hy
  have h3 : TextSize.fnPieces (functions items) ≤ TextSize.itemPieces (pre ++ .impl ty items :: post) := by
    clear hs h1 hp
    induction pre with
    | nil => simp [TextSize.itemPieces]
    | cons j pre ih => rw [List.cons_append, TextSize.itemPieces_cons]; exact Nat.le_trans ih (Nat.le_add_left _ _)
  omega

/-- C115: in particular each of them. -/
theorem C115_each {cc : CharClass} {pallet s : Str} {exts : List ChromaticExtrinsic} (h : parseContent rustSyn cc pallet s = .ok exts) {x : ChromaticExtrinsic}
    (hx : x ∈ exts) : parts x.term ≤ 2 * s.length :=
  Nat.le_trans (List.single_le_sum (by simp) _ (List.mem_map.2 ⟨x, hx, rfl⟩)) (C115_linear h)

/-- C115: from texts to steps.  When the calls read from two files are compared then at most 65536 points are evaluated, for each of them each version once, and
this takes at most twice as many steps, and nests at most twice as deep, as its file has characters. -/
theorem C115_bounded {b : Build} {ho : HashOrder} {cc : CharClass} {p p' s s' : Str} {olds news : List ChromaticExtrinsic}
    (h : parseContent rustSyn cc p s = .ok olds) (h' : parseContent rustSyn cc p' s' = .ok news) {x y : ChromaticExtrinsic} (hx : x ∈ olds) (hy : y ∈ news)
    {params : CompareParams} {r : TermChange} (hr : compareExtrinsics b ho (some (inDim params.unit x)) (some (inDim params.unit y)) params = .ok r) :
    ∃ scopes : List SimpleScope, scopes.Nodup ∧ scopes.length ≤ 65536 ∧
      (∀ sc, sc ∈ scopes ↔ Corner params.unit params.method (some (inDim params.unit x)) (some (inDim params.unit y)) sc) ∧
      ∀ sc ∈ scopes, (∃ v n d, Evals b sc (dropStorage params.unit (inDim params.unit x)).term v n d ∧ n ≤ 2 * s.length ∧ d ≤ 2 * s.length) ∧
        ∃ v n d, Evals b sc (dropStorage params.unit (inDim params.unit y)).term v n d ∧ n ≤ 2 * s'.length ∧ d ≤ 2 * s'.length := by
  obtain ⟨scopes, D, _, h2, h3, _, _, h4, h5, h6⟩ := C115_points hr
  have key : ∀ {q t : Str} {l : List ChromaticExtrinsic}, parseContent rustSyn cc q t = .ok l → ∀ z ∈ l,
      parts (dropStorage params.unit (inDim params.unit z)).term ≤ 2 * t.length ∧ height (dropStorage params.unit (inDim params.unit z)).term ≤ 2 * t.length := by
    intro q t l hl z hz
    have k1 := C115_each hl hz
    have k2 := parts_dropStorage params.unit (inDim params.unit z)
    have k3 : parts (inDim params.unit z).term = parts z.term := parts_project _ _
    have k4 := height_le_parts (dropStorage params.unit (inDim params.unit z)).term
    omega
  refine ⟨scopes, h2, ?_, h3, fun sc hsc => ⟨?_, ?_⟩⟩
  · rw [h4]; exact Nat.pow_le_pow_right (by decide) h5
  · obtain ⟨v, hv⟩ := h6 sc hsc _ (.inl rfl)
    exact ⟨v, _, _, hv, key h x hx⟩
  · obtain ⟨v, hv⟩ := h6 sc hsc _ (.inr rfl)
    exact ⟨v, _, _, hv, key h' y hy⟩

/-! ### Whole comparisons -/

/-- Different names find different entries. -/
theorem sum_found (w : ChromaticExtrinsic → Nat) {names : List (Str × Str)} (hn : names.Nodup) {l : List ChromaticExtrinsic}
    {f : Str × Str → Option ChromaticExtrinsic} (hf : ∀ p ∈ names, FirstOf l p.1 p.2 (f p)) :
    (names.map fun p => (f p).elim 0 w).sum ≤ (l.map w).sum := by
  classical
  have key : ∀ l : List ChromaticExtrinsic, (names.map fun p => (l.find? fun x => decide (Named p.1 p.2 x)).elim 0 w).sum ≤ (l.map w).sum := by
    intro l
    induction l with
    | nil =>
      have : ∀ names : List (Str × Str), (names.map fun _ => (0 : Nat)).sum = 0 := fun names => by induction names with
        | nil => rfl
        | cons _ _ ih => simp
      exact Nat.le_of_eq (this names)
    | cons x l ih =>
      have step : ∀ names : List (Str × Str), names.Nodup →
          (names.map fun p => ((x :: l).find? fun x => decide (Named p.1 p.2 x)).elim 0 w).sum
            ≤ (if (x.pallet, x.name) ∈ names then w x else 0) + (names.map fun p => (l.find? fun x => decide (Named p.1 p.2 x)).elim 0 w).sum := by
        intro names hn
        induction names with
        | nil => simp
        | cons p names ih =>
          have ih := ih (List.nodup_cons.1 hn).2
          rw [List.map_cons, List.sum_cons, List.map_cons, List.sum_cons, List.find?_cons]
          by_cases hp : Named p.1 p.2 x
          · have hpx : (x.pallet, x.name) = p := Prod.ext hp.1 hp.2
            rw [if_neg (hpx ▸ (List.nodup_cons.1 hn).1)] at ih
            rw [if_pos (hpx ▸ List.mem_cons_self), decide_eq_true hp]
            dsimp only [Option.elim_some]
            omega
          · have hpx : (x.pallet, x.name) ≠ p := fun h => hp (h ▸ ⟨rfl, rfl⟩)
            rw [decide_eq_false hp]
            dsimp only
            have e : ((x.pallet, x.name) ∈ p :: names) = ((x.pallet, x.name) ∈ names) := by simp [hpx]
            simp only [e]
            omega
      have := step names hn
      rw [List.map_cons, List.sum_cons]
      split at this <;> omega
  refine Nat.le_trans (Nat.le_of_eq ?_) (key l)
  congr 1
  refine List.map_congr_left fun p hp => ?_
  have h := hf p hp
  congr 1
  refine firstOf_unique h ?_
  cases hl : l.find? fun x => decide (Named p.1 p.2 x) with
  | none => exact fun x hx => of_decide_eq_false (by simpa using List.find?_eq_none.1 hl x hx)
  | some x =>
    obtain ⟨h1, l1, l2, h2, h3⟩ := List.find?_eq_some_iff_append.1 hl
    exact ⟨of_decide_eq_true h1, l1, l2, h2, fun y hy => of_decide_eq_false (by simpa using h3 y hy)⟩

/-- The texts of all files of a revision, with the names of their pallets, are read as these calls. -/
theorem parts_revision {cc : CharClass} {texts : List (Str × Str)} {read : List (List ChromaticExtrinsic)}
    (h : List.Forall₂ (fun t l => parseContent rustSyn cc t.1 t.2 = .ok l) texts read) :
    (read.flatten.map fun x => parts x.term).sum ≤ 2 * (texts.map fun t => t.2.length).sum := by
  induction h with
  | nil => simp
  | cons h1 _ ih =>
    have := C115_linear h1
    rw [List.flatten_cons, List.map_append, List.sum_append, List.map_cons, List.sum_cons]
    omega

/-- The work for one call. -/
theorem work_bound {b : Build} {ho : HashOrder} {params : CompareParams} {o n : Option ChromaticExtrinsic} {r : TermChange}
    (h : compareExtrinsics b ho (o.map (inDim params.unit)) (n.map (inDim params.unit)) params = .ok r) :
    ∃ k, Work b params.unit params.method (o.map (inDim params.unit)) (n.map (inDim params.unit)) k ∧
      k ≤ 65536 * ((o.elim 0 fun x => parts x.term) + (n.elim 0 fun x => parts x.term)) := by
  obtain ⟨scopes, D, _, h2, h3, _, _, h4, h5, h6⟩ := C115_points h
  refine ⟨_, ⟨scopes, fun e _ => parts (dropStorage params.unit e).term, h2, h3, fun e he s hs => ?_, rfl⟩, ?_⟩
  · obtain ⟨v, hv⟩ := h6 s hs e he
    exact ⟨v, _, hv⟩
  · have hl : scopes.length ≤ 65536 := by rw [h4]; exact Nat.pow_le_pow_right (by decide) h5
    rw [List.map_const', List.sum_replicate_nat]
    refine Nat.mul_le_mul hl ?_
    have key : ∀ z : Option ChromaticExtrinsic, ((z.map (inDim params.unit)).elim 0 fun e => parts (dropStorage params.unit e).term) ≤ z.elim 0 fun x => parts x.term := by
      intro z
      cases z with
      | none => exact Nat.le_refl _
      | some z =>
        have k2 := parts_dropStorage params.unit (inDim params.unit z)
        have k3 : parts (inDim params.unit z).term = parts z.term := parts_project _ _
        simp only [Option.map_some, Option.elim_some]
        omega
    exact Nat.add_le_add (key o) (key n)

/-- C115: a whole comparison.  All evaluations of all calls of two revisions together, listed or not, take at most 131072 steps for every character of their files. -/
theorem C115_whole {b : Build} {ho : HashOrder} {rx : RegexEngine} {cc : CharClass} {params : CompareParams} {filter : FilterParams} {oldTexts newTexts : List (Str × Str)}
    {olds news : List (List ChromaticExtrinsic)} (h1 : List.Forall₂ (fun t l => parseContent rustSyn cc t.1 t.2 = .ok l) oldTexts olds)
    (h2 : List.Forall₂ (fun t l => parseContent rustSyn cc t.1 t.2 = .ok l) newTexts news) {diff : List ExtrinsicDiff}
    (h : compareFiles b ho rx olds.flatten news.flatten params filter = .ok diff) :
    ∃ ns : List Nat, List.Forall₂ (fun d n => ∃ x y, FirstOf olds.flatten d.file d.name x ∧ FirstOf news.flatten d.file d.name y ∧
        ((n = 0 ∧ ∃ m, d.change = .failed m) ∨
          (d.term ≠ none ∧ Work b params.unit params.method (x.map (inDim params.unit)) (y.map (inDim params.unit)) n))) diff ns ∧
      ns.sum ≤ 131072 * ((oldTexts.map fun t => t.2.length).sum + (newTexts.map fun t => t.2.length).sum) := by
  classical
  obtain ⟨names, hs, -, hf⟩ := compareFiles_ok h
  have hname := names_map hf
  choose fo ho1 _ using fun p : Str × Str => findExtrinsic_first (d := params.unit) (l := olds.flatten) (p := p.1) (e := p.2)
  choose fn hn1 _ using fun p : Str × Str => findExtrinsic_first (d := params.unit) (l := news.flatten) (p := p.1) (e := p.2)
  have hnd : names.Nodup := sorted_nodup hs
  let w : ChromaticExtrinsic → Nat := fun x => parts x.term
  have main : ∀ {names : List (Str × Str)} {diff : List ExtrinsicDiff},
      List.Forall₂ (fun p d => entry b ho olds.flatten news.flatten params p = .ok d) names diff →
      ∃ ns : List Nat, List.Forall₂ (fun d n => ∃ x y, FirstOf olds.flatten d.file d.name x ∧ FirstOf news.flatten d.file d.name y ∧
        ((n = 0 ∧ ∃ m, d.change = .failed m) ∨
          (d.term ≠ none ∧ Work b params.unit params.method (x.map (inDim params.unit)) (y.map (inDim params.unit)) n))) diff ns ∧
        ns.sum ≤ 65536 * ((names.map fun p => (fo p).elim 0 w).sum + (names.map fun p => (fn p).elim 0 w).sum) := by
    intro names diff hf
    induction hf with
    | nil => exact ⟨[], .nil, by simp⟩
    | @cons p d names diff hd _ ih =>
      obtain ⟨ns, i1, i2⟩ := ih
      obtain ⟨e1, e2⟩ := entry_name hd
      have hx := ho1 p
      have hy := hn1 p
      have he := diffOne_entry hx hy e2
      have e3 : d.file = p.1 ∧ d.name = p.2 := ⟨congrArg Prod.fst e1, congrArg Prod.snd e1⟩
      simp only [List.map_cons, List.sum_cons]
      rcases he with ⟨m, _, hm⟩ | ⟨r, hr, hc⟩
      · exact ⟨0 :: ns, .cons ⟨_, _, e3.1 ▸ e3.2 ▸ hx, e3.1 ▸ e3.2 ▸ hy, .inl ⟨rfl, m, hm⟩⟩ i1, by rw [List.sum_cons]; omega⟩
      · obtain ⟨k, hk, hb⟩ := work_bound hr
        refine ⟨k :: ns, .cons ⟨_, _, e3.1 ▸ e3.2 ▸ hx, e3.1 ▸ e3.2 ▸ hy, .inr ⟨?_, hk⟩⟩ i1, ?_⟩
        · unfold ExtrinsicDiff.term
          rcases hc with ⟨_, hc⟩ | ⟨_, m, hc⟩ <;> rw [hc] <;> exact fun h => nomatch h
        · rw [List.sum_cons]
          have : (fo p).elim 0 w = (fo p).elim 0 fun x => parts x.term := rfl
          have : (fn p).elim 0 w = (fn p).elim 0 fun x => parts x.term := rfl
          omega
  obtain ⟨ns, i1, i2⟩ := main hf
  refine ⟨ns, i1, ?_⟩
  have k1 := sum_found w hnd (fun p _ => ho1 p)
  have k2 := sum_found w hnd (fun p _ => hn1 p)
  have k3 := parts_revision h1
  have k4 := parts_revision h2
  have k5 : (olds.flatten.map w).sum ≤ 2 * (oldTexts.map fun t => t.2.length).sum := k3
  have k6 : (news.flatten.map w).sum ≤ 2 * (newTexts.map fun t => t.2.length).sum := k4
  omega

/-! ### Examples -/

/-- `a.saturating_add(b)` has three parts, its equation five (each variable counts twice). -/
example : pieces (.methodCall (.path [str% "a"]) (str% "saturating_add") [.path [str% "b"]] false) = 3 ∧
    parts (T := Weight) (.add (.var (str% "a")) (.var (str% "b"))) = 5 ∧
    ReadsBody (.methodCall (.path [str% "a"]) (str% "saturating_add") [.path [str% "b"]] false) (.add (.var (str% "a")) (.var (str% "b"))) :=
  ⟨rfl, rfl, .inl (.add (.name [str% "a"]) (.name [str% "b"]))⟩

/-- The bound is exact up to a factor: there are files of `60 n + 93` characters with an equation of more than `n` parts. -/
example (n : Nat) (cc : CharClass) : ∃ s exts, s.length ≤ 60 * n + 93 ∧ parseContent rustSyn cc (str% "p") s = .ok exts ∧ n < (exts.map fun x => parts x.term).sum ∧
    (exts.map fun x => parts x.term).sum ≤ 2 * s.length := by
  obtain ⟨s, x, h1, h2, h3, _⟩ := C115_no_limit n cc (str% "p")
  have := height_le_parts x.term
  exact ⟨s, [x], h1, h2, by simp only [List.map_cons, List.map_nil, List.sum_cons, List.sum_nil]; omega, C115_linear h2⟩

/-- A whole comparison: a file with a large equation, compared with itself without filters, in a release build. -/
example (n : Nat) (cc : CharClass) (ho : HashOrder) (rx : RegexEngine) (params : CompareParams) : ∃ s exts diff, s.length ≤ 60 * n + 93 ∧
    List.Forall₂ (fun t l => parseContent rustSyn cc t.1 t.2 = .ok l) [(str% "p", s)] [exts] ∧
    compareFiles .release ho rx [exts].flatten [exts].flatten params ⟨F64.rnd 5, none, none, none⟩ = .ok diff := by
  obtain ⟨s, x, h1, h2, _, _⟩ := C115_no_limit n cc (str% "p")
  rcases C32_total ho rx [[x]].flatten [[x]].flatten params ⟨F64.rnd 5, none, none, none⟩ with ⟨diff, h⟩ | ⟨_, q, hq, _⟩
  · exact ⟨s, [x], diff, h1, .cons h2 .nil, h⟩
  · rcases hq with hq | hq <;> cases hq

end Swc
