/-
C80: from the texts of generated weight files in two revisions to the report.
-/
import Verif.Props.WeightText

namespace Swc

open Spec Term

namespace Gen

theorem rangeIn_wf {l : List DocLine} (h : ∀ x ∈ l, x.Ok) {c : Str} {r : ComponentRange} (hr : rangeIn c l = some r) :
    r.min ≤ r.max ∧ r.max < 2 ^ 32 := by
  induction l with
  | nil => cases hr
  | cons x l ih =>
    cases x with
    | text s => exact ih (fun y hy => h y (List.mem_cons_of_mem _ hy)) hr
    | range y lo hi =>
      rw [rangeIn] at hr
      cases hl : rangeIn c l with
      | some r' =>
        rw [hl] at hr
        cases hr
        exact ih (fun y hy => h y (List.mem_cons_of_mem _ hy)) hl
      | none =>
        rw [hl] at hr
        simp only [Option.none_or] at hr
        split at hr
        · cases hr
          exact (h _ List.mem_cons_self).2
        · cases hr

theorem lowest_le_highest {f g : GenFn} (hf : ∀ x ∈ f.docs, x.Ok) (hg : ∀ x ∈ g.docs, x.Ok) (c : Str) : lowestIn f g c ≤ highestIn f g c := by
  unfold lowestIn highestIn
  split <;> rename_i h1 h2
  · decide
  · exact (rangeIn_wf hf h1).1
  · exact (rangeIn_wf hg h2).1
  · have a := (rangeIn_wf hf h1).1
    have b := (rangeIn_wf hg h2).1
    omega

theorem highest_lt {f g : GenFn} (hf : ∀ x ∈ f.docs, x.Ok) (hg : ∀ x ∈ g.docs, x.Ok) (c : Str) : highestIn f g c < 2 ^ 32 := by
  unfold highestIn
  split <;> rename_i h1 h2
  · decide
  · exact (rangeIn_wf hf h1).2
  · exact (rangeIn_wf hg h2).2
  · have a := (rangeIn_wf hf h1).2
    have b := (rangeIn_wf hg h2).2
    omega

theorem rangeOf_read {p : Str} {f : GenFn} {a : ChromaticExtrinsic} (ha : ReadAs p f a) (d : Dimension) (c : Str) :
    rangeOf (some (inDim d a)) c = rangeIn c f.docs := by
  obtain ⟨_, _, _, hr⟩ := ha
  rw [← hr c, rangeOf, Option.map_some, rangeGet_getD]
  rfl

theorem minInst_lowest {p q : Str} {f g : GenFn} {a c : ChromaticExtrinsic} (ha : ReadAs p f a) (hc : ReadAs q g c) (d : Dimension) (x : Str) :
    MinInst (some (inDim d a)) (some (inDim d c)) x (lowestIn f g x) := by
  simp only [MinInst, annotated_iff, rangeOf_read ha, rangeOf_read hc]
  unfold lowestIn
  split <;> rename_i h1 h2 <;> rw [h1, h2]
  · simp
  · right; simp
  · right; simp
  · rename_i r s
    right
    rcases Nat.le_total r.min s.min with h | h
    · exact ⟨⟨r, .inl rfl, by omega⟩, by rintro _ (e | e) <;> cases e <;> omega⟩
    · exact ⟨⟨s, .inr rfl, by omega⟩, by rintro _ (e | e) <;> cases e <;> omega⟩

theorem maxInst_highest {p q : Str} {f g : GenFn} {a c : ChromaticExtrinsic} (ha : ReadAs p f a) (hc : ReadAs q g c) (d : Dimension) (x : Str) :
    MaxInst (some (inDim d a)) (some (inDim d c)) x (highestIn f g x) := by
  simp only [MaxInst, annotated_iff, rangeOf_read ha, rangeOf_read hc]
  unfold highestIn
  split <;> rename_i h1 h2 <;> rw [h1, h2]
  · simp
  · right; simp
  · right; simp
  · rename_i r s
    right
    rcases Nat.le_total r.max s.max with h | h
    · exact ⟨⟨s, .inr rfl, by omega⟩, by rintro _ (e | e) <;> cases e <;> omega⟩
    · exact ⟨⟨r, .inl rfl, by omega⟩, by rintro _ (e | e) <;> cases e <;> omega⟩

theorem cost_denote {p : Str} {f : GenFn} {a : ChromaticExtrinsic} (ha : ReadAs p f a) (rt : Runtime) (d : Dimension) :
    denote (rt.env d) (inDim d a).term = f.cost rt d := by
  rw [← ha.2.2.1 rt d, ← denote_project]
  rfl

end Gen

theorem Gen.worst_change {p q : Str} {f g : GenFn} {sf sg : Style} {a c : ChromaticExtrinsic} (hf : f.Ok sf) (hg : g.Ok sg)
    (ha : Gen.ReadAs' sf p f a) (hc : Gen.ReadAs' sg q g c) (b : Build) (ho : HashOrder) (params : CompareParams)
    (hm : params.method = .guessWorst ∨ params.method = .exactWorst)
    (htop : f.cost ⟨highestIn f g, 25000000, 100000000⟩ params.unit < 2 ^ 53 ∧ g.cost ⟨highestIn f g, 25000000, 100000000⟩ params.unit < 2 ^ 53)
    (r : TermChange) (h : compareExtrinsics b ho (some (inDim params.unit a)) (some (inDim params.unit c)) params = .ok r) :
    WorstChange f g params.unit r := by
  obtain ⟨h1, rt, r1, r2, r3, ro, rn, rp⟩ := worst_case_of_tame b ho params hm (Gen.minInst_lowest ha.1 hc.1 _) (Gen.maxInst_highest ha.1 hc.1 _)
    (Gen.lowest_le_highest hf.2.1 hg.2.1) (Gen.highest_lt hf.2.1 hg.2.1) ha.2.1 hc.2.1
    (by rintro v (rfl | rfl)
        · rw [Gen.cost_denote ha.1]; exact htop.1
        · rw [Gen.cost_denote hc.1]; exact htop.2) r h
  simp only [Gen.cost_denote ha.1, Gen.cost_denote hc.1] at h1 ro rn rp
  exact ⟨fun rt hrt => (h1 rt hrt.1 hrt.2.1 hrt.2.2).2.2, rt, ⟨r1, r2, r3⟩, ro, rn, rp⟩

theorem Gen.forall₂_get {α β : Type} {R : α → β → Prop} {l : List α} {m : List β} (h : List.Forall₂ R l m) {i : Nat} {x : α} {y : β}
    (hx : l[i]? = some x) (hy : m[i]? = some y) : R x y := by
  induction h generalizing i with
  | nil => simp at hx
  | cons hr _ ih =>
    cases i with
    | zero => simp only [List.getElem?_cons_zero, Option.some.injEq] at hx hy; subst hx hy; exact hr
    | succ i => exact ih (by simpa using hx) (by simpa using hy)

/-- C80: two texts of generated weight files are read, and the comparison of the call read from a function of the first with the call read from a
function of the second is the worst case of the numbers they contain: a change that no parameters in the documented ranges exceed, with
values that the functions have for some of them.  The cost for the highest parameters must be below 2^53. -/
theorem C80_files (cc : CharClass) (p q : Str) {sf sg : Style} {fns gns : List GenFn} {s t : Str} (hs : GenFile sf fns s) (ht : GenFile sg gns t)
    (hfn : fns ≠ []) (hgn : gns ≠ []) (hf : ∀ f ∈ fns, f.Ok sf) (hg : ∀ g ∈ gns, g.Ok sg) :
    ∃ as cs, parseContent rustSyn cc p s = .ok as ∧ parseContent rustSyn cc q t = .ok cs ∧ as.length = fns.length ∧ cs.length = gns.length ∧
      ∀ (i j : Nat) (f g : GenFn) (a c : ChromaticExtrinsic), fns[i]? = some f → gns[j]? = some g → as[i]? = some a → cs[j]? = some c →
        ∀ (b : Build) (ho : HashOrder) (params : CompareParams), params.method = .guessWorst ∨ params.method = .exactWorst →
          f.cost ⟨highestIn f g, 25000000, 100000000⟩ params.unit < 2 ^ 53 → g.cost ⟨highestIn f g, 25000000, 100000000⟩ params.unit < 2 ^ 53 →
          ∀ r, compareExtrinsics b ho (some (inDim params.unit a)) (some (inDim params.unit c)) params = .ok r → WorstChange f g params.unit r := by
  obtain ⟨as, h1, h2⟩ := Gen.file_read cc p hs hfn hf
  obtain ⟨cs, k1, k2⟩ := Gen.file_read cc q ht hgn hg
  refine ⟨as, cs, h1, k1, h2.length_eq.symm, k2.length_eq.symm, fun i j f g a c hi hj hai hcj b ho params hm t1 t2 r hr => ?_⟩
  exact Gen.worst_change (hf f (List.mem_of_getElem? hi)) (hg g (List.mem_of_getElem? hj)) (Gen.forall₂_get h2 hi hai) (Gen.forall₂_get k2 hj hcj) b ho
    params hm ⟨t1, t2⟩ r hr

/-- Every call read from generated files is one of their functions. -/
theorem Gen.function_of {W : World} {env : Env} {repo : Path} {ign : Bool} {s : W.State} {files : List Path} {exts : List ChromaticExtrinsic}
    (h : ParsedAs W env repo ign s files exts) {x : ChromaticExtrinsic} (hx : x ∈ exts)
    (hgen : ∀ file ∈ files, PathStripping.repoRelative.strip repo file = .ok x.pallet →
      ∃ content fns, GeneratedFile (W.fs s) file content fns ∧ env.syn content = rustSyn content) :
    ∃ file ∈ files, PathStripping.repoRelative.strip repo file = .ok x.pallet ∧
      ∃ content fns f style, GeneratedFile (W.fs s) file content fns ∧ f ∈ fns ∧ f.name = x.name ∧ f.Ok style ∧ Gen.ReadAs' style x.pallet f x := by
  obtain ⟨p, hp, y, hy, hxy⟩ := parseAll_mem (f := parseFileInRepo env (W.fs s) repo)
    ((parsedAs_iff.1 h).elim (fun h => .inr h.2) (fun h => .inl h.2)) hx
  unfold parseFileInRepo at hy
  obtain ⟨content, hc, hy⟩ := bind_eq_ok hy
  obtain ⟨name, hn, hy⟩ := bind_eq_ok hy
  have hy' : parseContent env.syn env.cc name content = .ok y := by
    revert hy
    cases parseContent env.syn env.cc name content <;> simp [withFile]
  have hpal : x.pallet = name := by
    obtain ⟨items, pre, i, post, h1, h2, ⟨ty, its, rfl, h3, _, h4⟩, _⟩ := C45_content hy'
    obtain ⟨f, hf, hfx⟩ := forall₂_mem_right h4 hxy
    exact hfx.2.2.1
  obtain ⟨content', fns, hg, hsyn⟩ := hgen p hp (by rw [hpal]; exact hn)
  have hc' : W.fs s p = .ok content := by
    unfold readFile at hc
    split at hc
    · cases hc; assumption
    · cases hc
  have e : content = content' := by
    have := hg.1
    rw [hc'] at this
    exact Except.ok.inj this
  subst e
  obtain ⟨_, hne, style, hgf, hok⟩ := hg
  obtain ⟨exts', h1, h2⟩ := Gen.file_read env.cc name hgf hne hok
  rw [parseContent, hsyn, ← parseContent, h1] at hy'
  cases hy'
  obtain ⟨f, hf, hfx⟩ := forall₂_mem_right h2 hxy
  exact ⟨p, hp, by rw [hpal]; exact hn, content, fns, f, style, ⟨hc', hne, style, hgf, hok⟩, hf, hfx.1.1.symm, hok f hf, by rw [hpal]; exact hfx⟩

/-- C80: the whole way, from the texts of the files to the report.  If the comparison of two revisions reports a call that exists in both, and the
files of that name are generated weight files in both revisions, then there are two functions of that name in them, and the report is the
worst case of the numbers they contain. -/
theorem C80_commits {W : World} (b : Build) (ho : HashOrder) (rx : RegexEngine) (env : Env) (repo : Path) (old new : Str)
    (params : CompareParams) (filter : FilterParams) (pattern : Str) (maxFiles : Nat) (s s' : Run W) (diff : List ExtrinsicDiff)
    (h : compareCommits b ho rx env repo old new params filter pattern maxFiles s = (.ok diff, s'))
    (hm : params.method = .guessWorst ∨ params.method = .exactWorst) :
    ∃ G1 s1 files1 G2 s2 files2,
      CheckedOut W old params.shouldPull params.gitForce s.state G1 s1 ∧ Listed W s1 repo pattern maxFiles files1 ∧
      CheckedOut W new params.shouldPull params.gitForce s1 G2 s2 ∧ Listed W s2 repo pattern maxFiles files2 ∧
      ∀ e ∈ diff, ∀ r, e.term = some r → r.change = .changed ∨ r.change = .unchanged →
        (∀ file ∈ files1, PathStripping.repoRelative.strip repo file = .ok e.file →
          ∃ content fns, GeneratedFile (W.fs s1) file content fns ∧ env.syn content = rustSyn content) →
        (∀ file ∈ files2, PathStripping.repoRelative.strip repo file = .ok e.file →
          ∃ content fns, GeneratedFile (W.fs s2) file content fns ∧ env.syn content = rustSyn content) →
        ∃ file1 ∈ files1, ∃ file2 ∈ files2, ∃ content1 content2 fns1 fns2, ∃ f ∈ fns1, ∃ g ∈ fns2,
          PathStripping.repoRelative.strip repo file1 = .ok e.file ∧ PathStripping.repoRelative.strip repo file2 = .ok e.file ∧
          GeneratedFile (W.fs s1) file1 content1 fns1 ∧ GeneratedFile (W.fs s2) file2 content2 fns2 ∧ f.name = e.name ∧ g.name = e.name ∧
          (f.cost ⟨highestIn f g, 25000000, 100000000⟩ params.unit < 2 ^ 53 →
            g.cost ⟨highestIn f g, 25000000, 100000000⟩ params.unit < 2 ^ 53 → WorstChange f g params.unit r) := by
  obtain ⟨_, ps, G1, s1, files1, olds, G2, s2, files2, news, _, c1, l1, p1, c2, l2, p2, hcf, _, _⟩ :=
    (C41_compare_commits b ho rx env repo old new params filter pattern maxFiles s s' diff).1 h
  refine ⟨G1, s1, files1, G2, s2, files2, c1, l1, c2, l2, fun e he r hr hch g1 g2 => ?_⟩
  obtain ⟨o, n, ho', hn', hent⟩ := C33_right_pair b ho rx olds news params filter diff hcf e he
  have hcmp : compareExtrinsics b ho (o.map (inDim params.unit)) (n.map (inDim params.unit)) params = .ok r := by
    rcases hent with ⟨m, _, hc⟩ | ⟨r', hc, ⟨_, hc'⟩ | ⟨_, m, hc'⟩⟩
    · rw [ExtrinsicDiff.term, hc] at hr; cases hr
    · rw [ExtrinsicDiff.term, hc'] at hr; cases hr; exact hc
    · rw [ExtrinsicDiff.term, hc'] at hr; cases hr; exact hc
  obtain ⟨k1, k2, _⟩ := C27_kinds b ho _ _ params r hcmp
  cases o with
  | none => rw [k1.2 rfl] at hch; rcases hch with hch | hch <;> cases hch
  | some x =>
    cases n with
    | none => rw [k2.2 rfl] at hch; rcases hch with hch | hch <;> cases hch
    | some y =>
      obtain ⟨⟨x1, x2⟩, l, l', hl, _⟩ := ho'
      obtain ⟨⟨y1, y2⟩, m, m', hm', _⟩ := hn'
      obtain ⟨file1, hf1, hs1, content1, fns1, f, sf, hg1, hff, hfn, hfo, hfx⟩ :=
        Gen.function_of p1 (x := x) (by rw [hl]; simp) (by rw [x1]; exact g1)
      obtain ⟨file2, hf2, hs2, content2, fns2, g, sg, hg2, hgg, hgn, hgo, hgx⟩ :=
        Gen.function_of p2 (x := y) (by rw [hm']; simp) (by rw [y1]; exact g2)
      exact ⟨file1, hf1, file2, hf2, content1, content2, fns1, fns2, f, hff, g, hgg, by rw [← x1]; exact hs1, by rw [← y1]; exact hs2, hg1, hg2,
        by rw [hfn, x2], by rw [hgn, y2], fun t1 t2 => Gen.worst_change hfo hgo hfx hgx b ho params hm ⟨t1, t2⟩ r hcmp⟩

/-! ### A concrete comparison -/

/-- A repository with the revisions `v1` and `v2`: all files have the text of the example, with a slope of 7000000 or 9000000. -/
def exGenWorld : World := { exWorld with fs := fun (s : Str) _ => .ok (exGenText (if s = str% "v1" then str% "7_000_000" else str% "9_000000_u64")) }

/-- Its comparison. -/
def exGenRun : Res (List ExtrinsicDiff) × Run exGenWorld :=
  compareCommits (W := exGenWorld) .release idOrder exRegex ⟨rustSyn, asciiClass⟩ [.normal (str% "r")] (str% "v1") (str% "v2")
    ⟨.guessWorst, .time, false, false, false, false⟩ exFilter (str% "*") 2 ⟨str% "start", []⟩

/-- The report on the texts: at `n = 1000` the first function costs 12345000 + 1000 · 7000000 (then 1000 · 9000000), one read and 2000 writes. -/
example : exGenRun.1.map (List.map exShow) = .ok [
    ⟨str% "a.rs", str% "burn", some 5, some 5, some .unchanged, false⟩,
    ⟨str% "a.rs", str% "transfer", some 207037345000, some 209037345000, some .changed, false⟩,
    ⟨str% "w.rs", str% "burn", some 5, some 5, some .unchanged, false⟩,
    ⟨str% "w.rs", str% "transfer", some 207037345000, some 209037345000, some .changed, false⟩] := by decide +kernel

/-- All its files are generated files, in both revisions. -/
example (s : Str) (file : Path) : ∃ content fns, GeneratedFile (exGenWorld.fs s) file content fns := by
  by_cases h : s = str% "v1"
  · exact ⟨_, exGenFns 7000000, by simp only [exGenWorld, h, if_true], by decide, .parts, exGen_7, exGen_ok (by decide)⟩
  · exact ⟨_, exGenFns 9000000, by simp only [exGenWorld, h, if_false], by decide, .parts, exGen_9, exGen_ok (by decide)⟩

/-- The highest costs are far below 2^53. -/
example : ((exGenFns 7000000)[0]).cost ⟨highestIn (exGenFns 7000000)[0] (exGenFns 9000000)[0], 25000000, 100000000⟩ .time = 207037345000 ∧
    207037345000 < 2 ^ 53 := by decide

end Swc
