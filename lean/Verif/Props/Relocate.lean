/-
C78: moving the repository to another place does not change the report.
-/
import Verif.Props.Commands
import Verif.Lemmas.PathOrder

namespace Swc

open Spec

theorem pathCmp_append (r a c : Path) : Path.cmp (r ++ a) (r ++ c) = Path.cmp a c := by
  induction r with
  | nil => rfl
  | cons x r ih =>
    show (Comp.cmp x x).then (Path.cmp (r ++ a) (r ++ c)) = _
    rw [(compCmp_eq x x).2 rfl, ih]; rfl

theorem movedGlob_symm {repo repo' : Path} {l l' : Except Str (List (Except Str Path))} (h : MovedGlob repo repo' l l') : MovedGlob repo' repo l' l := by
  rcases h with ⟨e, h1, h2⟩ | ⟨rels, h1, h2, h3⟩
  · exact .inl ⟨e, h2, h1⟩
  · exact .inr ⟨rels, h2, h1, h3⟩

theorem movedRepo_symm {W : World} {repo repo' : Path} {glob' : W.State → Str → Except Str (List (Except Str Path))} {fs' : W.State → Fs}
    (h : MovedRepo W repo repo' glob' fs') : MovedRepo (withFiles W glob' fs') repo' repo W.glob W.fs :=
  ⟨fun s p => movedGlob_symm (h.globs s p), fun s rel => (h.reads s rel).symm⟩

/-- Relative paths whose absolute ones are all readable. -/
theorem all_ok {repo : Path} {rels : List (Except Str Path)} {all : List Path}
    (h : (Except.ok (rels.map fun x => x.map (repo ++ ·)) : Except Str (List (Except Str Path))) = .ok (all.map .ok)) :
    ∃ rs : List Path, rels = rs.map .ok ∧ all = rs.map (repo ++ ·) := by
  have h := Except.ok.inj h
  clear * - h
  induction rels generalizing all with
  | nil =>
    cases all with
    | nil => exact ⟨[], rfl, rfl⟩
    | cons a l => cases h
  | cons x rels ih =>
    cases all with
    | nil => cases h
    | cons a l =>
      obtain ⟨h1, h2⟩ := List.cons.inj h
      obtain ⟨rs, rfl, rfl⟩ := ih h2
      cases x with
      | error e => cases h1
      | ok p => cases h1; exact ⟨p :: rs, rfl, rfl⟩

theorem keeps_last (repo rel : Path) (h : rel ≠ []) : (repo ++ rel).getLast? = rel.getLast? := by
  rw [List.getLast?_append]
  cases hr : rel.getLast? with
  | none => exact absurd (List.getLast?_eq_none_iff.1 hr) h
  | some x => rfl

theorem moved_found {W : World} {repo repo' : Path} {glob' : W.State → Str → Except Str (List (Except Str Path))} {fs' : W.State → Fs}
    (h : MovedRepo W repo repo' glob' fs') {s : W.State} {ps : List Str} {ms : List (List Path)} (hf : Found W s repo ps ms) :
    ∃ rs : List (List Path), ms = rs.map (List.map (repo ++ ·)) ∧ Found (withFiles W glob' fs') s repo' ps (rs.map (List.map (repo' ++ ·))) := by
  unfold Found at hf
  induction hf with
  | nil => exact ⟨[], rfl, .nil⟩
  | @cons p m ps ms hp _ ih =>
    obtain ⟨rs, rfl, hrs⟩ := ih
    obtain ⟨all, hg, rfl⟩ := hp
    rcases h.globs s p with ⟨e, h1, _⟩ | ⟨rels, h1, h2, h3⟩
    · rw [GlobMatches, h1] at hg; cases hg
    · rw [GlobMatches, h1] at hg
      obtain ⟨xs, rfl, rfl⟩ := all_ok hg
      have hne : ∀ x ∈ xs, x ≠ [] := fun x hx h0 => h3 (by subst h0; exact List.mem_map_of_mem hx)
      have key : ∀ r : Path, ((xs.map (r ++ ·)).filter fun f => f.getLast? ≠ some (.normal (str% "mod.rs")))
          = (xs.filter fun f => f.getLast? ≠ some (.normal (str% "mod.rs"))).map (r ++ ·) := by
        intro r
        rw [List.filter_map]
        congr 1
        apply List.filter_congr
        intro x hx
        simp only [Function.comp_apply, keeps_last r x (hne x hx)]
      refine ⟨(xs.filter fun f => f.getLast? ≠ some (.normal (str% "mod.rs"))) :: rs, ?_, ?_⟩
      · rw [List.map_cons, key]
      · rw [List.map_cons]
        refine .cons ⟨xs.map (repo' ++ ·), ?_, (key repo').symm⟩ hrs
        show glob' s _ = _
        rw [h2]
        simp [Except.map]

theorem moved_listed {W : World} {repo repo' : Path} {glob' : W.State → Str → Except Str (List (Except Str Path))} {fs' : W.State → Fs}
    (h : MovedRepo W repo repo' glob' fs') {s : W.State} {pattern : Str} {n : Nat} {files : List Path} (hl : Listed W s repo pattern n files) :
    ∃ rels : List Path, files = rels.map (repo ++ ·) ∧ Listed (withFiles W glob' fs') s repo' pattern n (rels.map (repo' ++ ·)) := by
  obtain ⟨ps, ms, h1, h2, h3, h4, h5⟩ := hl
  obtain ⟨rs, rfl, h2'⟩ := moved_found h h2
  have hfl : ∀ r : Path, (rs.map (List.map (r ++ ·))).flatten = rs.flatten.map (r ++ ·) := fun r => List.map_flatten.symm
  rw [hfl] at h3 h5
  have hex : ∃ rels : List Path, files = rels.map (repo ++ ·) ∧ ∀ x ∈ rels, x ∈ rs.flatten := by
    have : ∀ f ∈ files, ∃ x, x ∈ rs.flatten ∧ repo ++ x = f := fun f hf => List.mem_map.1 ((h5 f).1 hf)
    clear h4 h5 h3
    induction files with
    | nil => exact ⟨[], rfl, by simp⟩
    | cons f l ih =>
      obtain ⟨rels, rfl, hm⟩ := ih fun f hf => this f (List.mem_cons_of_mem _ hf)
      obtain ⟨x, hx, rfl⟩ := this f List.mem_cons_self
      exact ⟨x :: rels, rfl, by intro y hy; rcases List.mem_cons.1 hy with rfl | hy; exacts [hx, hm y hy]⟩
  obtain ⟨rels, rfl, hm⟩ := hex
  refine ⟨rels, rfl, ps, rs.map (List.map (repo' ++ ·)), h1, h2', by rw [hfl]; rw [List.length_map] at h3 ⊢; exact h3, ?_, ?_⟩
  · rw [List.pairwise_map] at h4 ⊢
    exact h4.imp fun {a c} hac => by rw [pathCmp_append] at hac ⊢; exact hac
  · intro f
    rw [hfl]
    constructor
    · intro hf
      obtain ⟨x, hx, rfl⟩ := List.mem_map.1 hf
      exact List.mem_map_of_mem (hm x hx)
    · intro hf
      obtain ⟨x, hx, rfl⟩ := List.mem_map.1 hf
      obtain ⟨y, hy, hxy⟩ := List.mem_map.1 ((h5 (repo ++ x)).2 (List.mem_map_of_mem hx))
      exact List.mem_map.2 ⟨y, hy, by rw [List.append_cancel_left hxy]⟩

theorem moved_file {W : World} {repo repo' : Path} {glob' : W.State → Str → Except Str (List (Except Str Path))} {fs' : W.State → Fs}
    (h : MovedRepo W repo repo' glob' fs') (env : Env) (s : W.State) (rel : Path) :
    (∀ x, parseFileInRepo env (W.fs s) repo (repo ++ rel) = .ok x → parseFileInRepo env (fs' s) repo' (repo' ++ rel) = .ok x) ∧
    ((∃ m, parseFileInRepo env (W.fs s) repo (repo ++ rel) = .err m) → ∃ m, parseFileInRepo env (fs' s) repo' (repo' ++ rel) = .err m) := by
  unfold parseFileInRepo readFile
  rw [h.reads s rel, C53_relocation, C53_relocation]
  cases W.fs s (repo ++ rel) with
  | error e => exact ⟨fun x hx => (by cases hx), fun _ => ⟨_, rfl⟩⟩
  | ok c =>
    simp only [Res.bind_ok]
    cases parseContent env.syn env.cc rel.display c with
    | ok y => exact ⟨fun x hx => hx, fun ⟨m, hm⟩ => (by cases hm)⟩
    | err m => exact ⟨fun x hx => (by cases hx), fun _ => ⟨_, rfl⟩⟩
    | panic => exact ⟨fun x hx => (by cases hx), fun ⟨m, hm⟩ => (by cases hm)⟩
    | diverge => exact ⟨fun x hx => (by cases hx), fun ⟨m, hm⟩ => (by cases hm)⟩

theorem moved_parsed {W : World} {repo repo' : Path} {glob' : W.State → Str → Except Str (List (Except Str Path))} {fs' : W.State → Fs}
    (h : MovedRepo W repo repo' glob' fs') {env : Env} {ign : Bool} {s : W.State} {rels : List Path} {exts : List ChromaticExtrinsic}
    (hp : ParsedAs W env repo ign s (rels.map (repo ++ ·)) exts) :
    ParsedAs (withFiles W glob' fs') env repo' ign s (rels.map (repo' ++ ·)) exts := by
  refine (parsedAs_iff (W := withFiles W glob' fs')).2 ?_
  rcases parsedAs_iff.1 hp with ⟨hi, hp⟩ | ⟨hi, hp⟩
  · refine .inl ⟨hi, ?_⟩
    unfold tryParseFilesInRepo at hp ⊢
    rw [tryParseAll_ok] at hp ⊢
    obtain ⟨rs, h1, rfl⟩ := hp
    refine ⟨rs, ?_, rfl⟩
    rw [List.forall₂_map_left_iff] at h1 ⊢
    exact h1.imp fun rel x hx => hx.imp ((moved_file h env s rel).1 x) fun hx => ⟨hx.1, (moved_file h env s rel).2 hx.2⟩
  · refine .inr ⟨hi, ?_⟩
    unfold parseFilesInRepo at hp ⊢
    rw [C49_all] at hp ⊢
    obtain ⟨rs, h1, rfl⟩ := hp
    refine ⟨rs, ?_, rfl⟩
    rw [List.forall₂_map_left_iff] at h1 ⊢
    exact h1.imp fun rel x hx => (moved_file h env s rel).1 x hx

theorem moved_checkedOut {W : World} {glob' : W.State → Str → Except Str (List (Except Str Path))} {fs' : W.State → Fs} {r : Str} {pull force : Bool}
    {s s' : W.State} {L : List Event} (h : CheckedOut W r pull force s L s') : CheckedOut (withFiles W glob' fs') r pull force s L s' := h

theorem moved_run {W : World} {repo repo' : Path} {glob' : W.State → Str → Except Str (List (Except Str Path))} {fs' : W.State → Fs}
    (h : MovedRepo W repo repo' glob' fs') (b : Build) (ho : HashOrder) (rx : RegexEngine) (env : Env) (old new : Str) (params : CompareParams)
    (filter : FilterParams) (pattern : Str) (maxFiles : Nat) (st fi : W.State) (diff : List ExtrinsicDiff)
    (hr : Reports W b ho rx env repo old new params filter pattern maxFiles st diff fi) :
    Reports (withFiles W glob' fs') b ho rx env repo' old new params filter pattern maxFiles st diff fi := by
  obtain ⟨log, hr⟩ := hr
  obtain ⟨hd, ps, G1, s1, files1, olds, G2, s2, files2, news, h1, h2, h3, h4, h5, h6, h7, h8, h9, h10⟩ :=
    (C41_compare_commits b ho rx env repo old new params filter pattern maxFiles _ _ diff).1 hr
  obtain ⟨rels1, rfl, l1⟩ := moved_listed h h3
  obtain ⟨rels2, rfl, l2⟩ := moved_listed h h6
  exact ⟨_, (C41_compare_commits (W := withFiles W glob' fs') b ho rx env repo' old new params filter pattern maxFiles ⟨st, []⟩ ⟨fi, _⟩ diff).2
    ⟨hd, ps, G1, s1, _, olds, G2, s2, _, news, h1, moved_checkedOut h2, l1, moved_parsed h h4, moved_checkedOut h5, l2, moved_parsed h h7, h8, h9, rfl⟩⟩

/-- C78: if the same repository is at `repo` in one world and at `repo'` in another, comparing two revisions gives the same report in
both, and the repository is left in the same state. -/
theorem C78_relocation {W : World} {repo repo' : Path} {glob' : W.State → Str → Except Str (List (Except Str Path))} {fs' : W.State → Fs}
    (h : MovedRepo W repo repo' glob' fs') (b : Build) (ho : HashOrder) (rx : RegexEngine) (env : Env) (old new : Str) (params : CompareParams)
    (filter : FilterParams) (pattern : Str) (maxFiles : Nat) (st fi : W.State) (diff : List ExtrinsicDiff) :
    Reports W b ho rx env repo old new params filter pattern maxFiles st diff fi ↔
      Reports (withFiles W glob' fs') b ho rx env repo' old new params filter pattern maxFiles st diff fi :=
  ⟨moved_run h b ho rx env old new params filter pattern maxFiles st fi diff,
    moved_run (movedRepo_symm h) b ho rx env old new params filter pattern maxFiles st fi diff⟩

/-- The same files below `/x/y`. -/
def exGlob' : Str → Str → Except Str (List (Except Str Path)) := fun _ p => if p = str% "/x/y/[" then .error (str% "invalid") else
  .ok [.ok [.root, .normal (str% "x"), .normal (str% "y"), .normal (str% "w.rs")], .ok [.root, .normal (str% "x"), .normal (str% "y"), .normal (str% "mod.rs")],
    .ok [.root, .normal (str% "x"), .normal (str% "y"), .normal (str% "a.rs")]]

theorem exMoved : MovedRepo exWorld [.normal (str% "r")] [.root, .normal (str% "x"), .normal (str% "y")] exGlob' (fun (s : Str) _ => .ok s) := by
  refine ⟨fun s p => ?_, fun s rel => rfl⟩
  show MovedGlob _ _ (if str% "r" ++ str% "/" ++ p = str% "r/[" then .error (str% "invalid") else _)
    (if str% "/x/y" ++ str% "/" ++ p = str% "/x/y/[" then .error (str% "invalid") else _)
  by_cases h : p = str% "["
  · subst h
    exact .inl ⟨str% "invalid", rfl, rfl⟩
  · rw [if_neg fun e => h (by simpa using e), if_neg fun e => h (by simpa using e)]
    exact .inr ⟨[.ok [.normal (str% "w.rs")], .ok [.normal (str% "mod.rs")], .ok [.normal (str% "a.rs")]], rfl, rfl, by simp⟩

example : ∃ diff fi, diff ≠ [] ∧
    Reports (withFiles exWorld exGlob' fun s _ => .ok s) .release idOrder exRegex exEnv [.root, .normal (str% "x"), .normal (str% "y")] (str% "v1") (str% "v2")
      ⟨.base, .time, false, false, false, false⟩ exFilter (str% "*") 2 (str% "start") diff fi := by
  have h : isOk (exRun (str% "v1") (str% "v2") (str% "*") false false 2).1 = true := by decide +kernel
  have hl : ((compareCommits (W := exWorld) .release idOrder exRegex exEnv [.normal (str% "r")] (str% "v1") (str% "v2")
      ⟨.base, .time, false, false, false, false⟩ exFilter (str% "*") 2 ⟨str% "start", []⟩).1.map List.length) = .ok 2 := by decide +kernel
  generalize hr : compareCommits (W := exWorld) .release idOrder exRegex exEnv [.normal (str% "r")] (str% "v1") (str% "v2")
      ⟨.base, .time, false, false, false, false⟩ exFilter (str% "*") 2 ⟨str% "start", []⟩ = r at hl
  obtain ⟨x, s⟩ := r
  cases x with
  | ok d =>
    refine ⟨d, s.state, ?_, (C78_relocation exMoved _ _ _ _ _ _ _ _ _ _ _ _ _).1 ⟨s.log, hr⟩⟩
    rintro rfl
    cases hl
  | err m => cases hl
  | panic => cases hl
  | diverge => cases hl

end Swc
