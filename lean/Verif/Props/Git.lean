/-
C38–C42: listing files, git commands, comparing commits.
-/
import Verif.Spec.Git
import Verif.Lemmas.PathOrder
import Verif.Props.Sort
import Verif.Props.ParseFile
import Verif.Props.Language
import Verif.Props.CompareFiles

namespace Swc

open Spec Std

variable {W : World}

/-! ### Sequencing -/

namespace Act

variable {α β : Type}

theorem bind_eq (x : Act W α) (f : α → Act W β) (s : Run W) : (x >>= f) s = match x s with
  | (.ok a, s') => f a s'
  | (.err m, s') => (.err m, s')
  | (.panic, s') => (.panic, s')
  | (.diverge, s') => (.diverge, s') := rfl

theorem bind_ok {x : Act W α} {f : α → Act W β} {s s' : Run W} {b : β} :
    (x >>= f) s = (.ok b, s') ↔ ∃ a s1, x s = (.ok a, s1) ∧ f a s1 = (.ok b, s') := by
  rw [bind_eq]
  constructor
  · intro h
    split at h
    · rename_i a s1 hx; exact ⟨a, s1, hx, h⟩
    all_goals cases h
  · rintro ⟨a, s1, h1, h2⟩
    rw [h1]; exact h2

theorem bind_of_ok {x : Act W α} {f : α → Act W β} {s s1 : Run W} {a : α} (h : x s = (.ok a, s1)) : (x >>= f) s = f a s1 := by
  rw [bind_eq, h]
theorem bind_of_err {x : Act W α} {f : α → Act W β} {s s1 : Run W} {m : Str} (h : x s = (.err m, s1)) : (x >>= f) s = (.err m, s1) := by
  rw [bind_eq, h]

theorem mapErr_ok {f : Str → Str} {x : Act W α} {s s' : Run W} {a : α} : x.mapErr f s = (.ok a, s') ↔ x s = (.ok a, s') := by
  unfold mapErr
  generalize x s = r
  obtain ⟨r, s1⟩ := r
  cases r <;> simp [Res.mapErr]

theorem mapErr_err {f : Str → Str} {x : Act W α} {s s' : Run W} {m : Str} : x.mapErr f s = (.err m, s') ↔ ∃ m', x s = (.err m', s') ∧ m = f m' := by
  unfold mapErr
  generalize x s = r
  obtain ⟨r, s1⟩ := r
  cases r with
  | err e =>
    simp only [Res.mapErr, Prod.mk.injEq, Res.err.injEq]
    constructor
    · rintro ⟨rfl, rfl⟩; exact ⟨e, ⟨rfl, rfl⟩, rfl⟩
    · rintro ⟨m', ⟨rfl, rfl⟩, rfl⟩; exact ⟨rfl, rfl⟩
  | _ => simp [Res.mapErr]

theorem pure_run (a : α) (s : Run W) : (pure a : Act W α) s = (.ok a, s) := rfl
theorem lift_run (r : Res α) (s : Run W) : (Act.lift r : Act W α) s = (r, s) := rfl

end Act

/-- Everything that the computation adds to the log satisfies `Q`. -/
def Emits {α : Type} (Q : Event → Prop) (x : Act W α) : Prop := ∀ s, ∃ L, (x s).2.log = s.log ++ L ∧ ∀ e ∈ L, Q e

theorem emits_pure {α : Type} (Q : Event → Prop) (a : α) : Emits Q (pure a : Act W α) := fun s => ⟨[], by simp [Act.pure_run], by simp⟩
theorem emits_lift {α : Type} (Q : Event → Prop) (r : Res α) : Emits Q (Act.lift r : Act W α) := fun s => ⟨[], by simp [Act.lift_run], by simp⟩

theorem emits_bind {α β : Type} {Q : Event → Prop} {x : Act W α} {f : α → Act W β} (hx : Emits Q x) (hf : ∀ a, Emits Q (f a)) :
    Emits Q (x >>= f) := by
  intro s
  obtain ⟨L, h1, h2⟩ := hx s
  rw [Act.bind_eq]
  split
  · rename_i a s' hs
    rw [hs] at h1
    obtain ⟨L', h3, h4⟩ := hf a s'
    refine ⟨L ++ L', by rw [h3, h1, List.append_assoc], ?_⟩
    intro e he
    rcases List.mem_append.1 he with h | h
    · exact h2 e h
    · exact h4 e h
  all_goals (rename_i s' hs; rw [hs] at h1; exact ⟨L, h1, h2⟩)

theorem emits_mapErr {α : Type} {Q : Event → Prop} {f : Str → Str} {x : Act W α} (hx : Emits Q x) : Emits Q (x.mapErr f) := hx

theorem emits_ite {α : Type} {Q : Event → Prop} {c : Prop} [Decidable c] {x y : Act W α} (hx : c → Emits Q x) (hy : ¬ c → Emits Q y) :
    Emits Q (if c then x else y) := by
  split
  · rename_i h; exact hx h
  · rename_i h; exact hy h

/-! ### Listing files -/

theorem splitChar_ne_nil (c : Char) (s : Str) : splitChar c s ≠ [] := by
  induction s with
  | nil => simp [splitChar]
  | cons x s ih =>
    rw [splitChar]
    split
    · simp
    · split
      · simp
      · simp

theorem splitChar_pieces (s : Str) : Pieces s (splitChar ',' s) := by
  refine ⟨splitChar_ne_nil _ _, ?_, ?_⟩
  · induction s with
    | nil => simp [splitChar]
    | cons x s ih =>
      rw [splitChar]
      split
      · intro p hp
        rcases List.mem_cons.1 hp with rfl | h
        · simp
        · exact ih p h
      · rename_i hx
        split
        · rename_i h t ht
          intro p hp
          rcases List.mem_cons.1 hp with rfl | hp
          · have := ih h (by rw [ht]; simp)
            simp only [List.mem_cons, not_or]
            exact ⟨fun e => hx e.symm, this⟩
          · exact ih p (by rw [ht]; exact List.mem_cons_of_mem _ hp)
        · intro p hp
          simp at hp
          subst hp
          simp only [List.mem_singleton]
          exact fun e => hx e.symm
  · induction s with
    | nil => rfl
    | cons x s ih =>
      rw [splitChar]
      split
      · rename_i hx
        subst hx
        cases hs : splitChar ',' s with
        | nil => exact absurd hs (splitChar_ne_nil _ _)
        | cons a l => rw [joinStr, ← hs, ih]; rfl
      · split
        · rename_i h t ht
          rw [ht] at ih
          rw [← ih]
          cases t <;> rfl
        · rename_i ht
          exact absurd ht (splitChar_ne_nil _ _)

theorem pieces_unique {s : Str} {ps qs : List Str} (hp : Pieces s ps) (hq : Pieces s qs) : ps = qs := by
  obtain ⟨p1, p2, p3⟩ := hp
  obtain ⟨q1, q2, q3⟩ := hq
  subst p3
  have split : ∀ {a c r s : Str}, ',' ∉ a → ',' ∉ c → a ++ ',' :: r = c ++ ',' :: s → a = c ∧ r = s := by
    intro a
    induction a with
    | nil =>
      intro c r s _ hc h
      cases c with
      | nil => simpa using h
      | cons x c => simp at h; simp [← h.1] at hc
    | cons x a ih =>
      intro c r s ha hc h
      cases c with
      | nil => simp at h; simp [h.1] at ha
      | cons y c =>
        simp only [List.cons_append, List.cons.injEq] at h
        obtain ⟨rfl, h⟩ := h
        obtain ⟨rfl, rfl⟩ := ih (fun h' => ha (.tail _ h')) (fun h' => hc (.tail _ h')) h
        exact ⟨rfl, rfl⟩
  induction ps generalizing qs with
  | nil => exact absurd rfl p1
  | cons a ps ih =>
    match ps, qs with
    | _, [] => exact absurd rfl q1
    | [], [x] => simp [joinStr] at q3; rw [q3]
    | [], x :: y :: l =>
      simp only [joinStr] at q3
      have := p2 a (by simp)
      rw [← q3] at this
      simp at this
    | b :: ps, [x] =>
      simp only [joinStr] at q3
      have := q2 x (by simp)
      rw [q3] at this
      simp at this
    | b :: ps, x :: y :: l =>
      simp only [joinStr, List.append_assoc, List.cons_append, List.nil_append] at q3
      obtain ⟨h1, h2⟩ := split (q2 x (by simp)) (p2 a (by simp)) q3
      rw [h1, ih (by simp) (fun p h => p2 p (.tail _ h)) (by simp) (fun p h => q2 p (.tail _ h)) h2]

theorem collectPaths_ok (l : List (Except Str Path)) (ps : List Path) : collectPaths l = .ok ps ↔ l = ps.map .ok := by
  induction l generalizing ps with
  | nil => cases ps <;> simp [collectPaths]
  | cons a l ih =>
    cases a with
    | error e => cases ps <;> simp [collectPaths]
    | ok p =>
      rw [collectPaths]
      constructor
      · intro h
        obtain ⟨qs, hq, h⟩ := bind_eq_ok h
        cases h
        rw [(ih qs).1 hq]; rfl
      · intro h
        cases ps with
        | nil => cases h
        | cons q ps =>
          cases h
          rw [(ih ps).2 rfl]; rfl

theorem collectPaths_clean (l : List (Except Str Path)) : Clean (collectPaths l) := by
  induction l with
  | nil => exact clean_ok _
  | cons a l ih =>
    cases a with
    | error e => exact .inr ⟨_, rfl⟩
    | ok p => exact clean_bind ih fun _ _ => clean_ok _

theorem runGlob_ok (pat : Str) (s s' : Run W) (ms : List Path) :
    runGlob pat s = (.ok ms, s') ↔ GlobMatches W s.state pat ms ∧ s' = ⟨s.state, s.log ++ [.glob pat]⟩ := by
  unfold runGlob GlobMatches
  cases hg : W.glob s.state pat with
  | error e => simp
  | ok l =>
    simp only [Prod.mk.injEq, collectPaths_ok, Except.ok.injEq]
    constructor
    · rintro ⟨h1, h2⟩; exact ⟨h1, h2.symm⟩
    · rintro ⟨h1, h2⟩; exact ⟨h1, h2.symm⟩

theorem endsWithModRs_eq (f : Path) : (!f.endsWithModRs) = decide (f.getLast? ≠ some (.normal (str% "mod.rs"))) := by
  unfold Path.endsWithModRs
  by_cases h : f.getLast? = some (.normal (str% "mod.rs")) <;> simp [h]

theorem listLoop_ok (base : Path) (maxFiles : Nat) (ps : List Str) (acc files : List Path) (hacc : acc.length ≤ maxFiles) (s s' : Run W) :
    listLoop base maxFiles ps acc s = (.ok files, s') ↔ ∃ ms, Found W s.state base ps ms ∧ files = acc ++ ms.flatten
      ∧ files.length ≤ maxFiles ∧ s' = ⟨s.state, s.log ++ ps.map fun p => .glob (base.display ++ str% "/" ++ p)⟩ := by
  induction ps generalizing acc s with
  | nil =>
    rw [listLoop, Act.pure_run]
    unfold Found
    simp only [List.forall₂_nil_left_iff]
    constructor
    · intro h
      cases h
      exact ⟨[], rfl, by simp, hacc, by simp⟩
    · rintro ⟨ms, rfl, rfl, -, rfl⟩
      simp
  | cons p ps ih =>
    rw [listLoop, Act.bind_ok]
    unfold Found
    simp only [List.forall₂_cons_left_iff]
    constructor
    · rintro ⟨all, s1, h1, h2⟩
      obtain ⟨hg, rfl⟩ := (runGlob_ok _ _ _ _).1 h1
      split at h2
      · cases h2
      · rename_i hle
        obtain ⟨ms, f1, f2, f3, f4⟩ := (ih _ (by omega) _).1 h2
        refine ⟨(all.filter fun f => !f.endsWithModRs) :: ms, ⟨_, ms, ⟨all, hg, by simp only [endsWithModRs_eq]⟩, f1, rfl⟩, ?_, f3, ?_⟩
        · rw [f2]; simp [List.append_assoc]
        · rw [f4]; simp [List.append_assoc]
    · rintro ⟨ms, ⟨m, ms', ⟨all, hg, hm⟩, f1, rfl⟩, f2, f3, f4⟩
      refine ⟨all, _, (runGlob_ok _ _ _ _).2 ⟨hg, rfl⟩, ?_⟩
      have hm' : (all.filter fun f => !f.endsWithModRs) = m := by rw [hm]; simp only [endsWithModRs_eq]
      rw [hm']
      have hle : (acc ++ m).length ≤ maxFiles := by
        rw [f2] at f3
        simp only [List.flatten_cons, List.length_append] at f3 ⊢
        omega
      rw [if_neg (by omega)]
      refine (ih _ hle _).2 ⟨ms', f1, ?_, f3, ?_⟩
      · rw [f2]; simp [List.append_assoc]
      · rw [f4]; simp [List.append_assoc]

theorem pathSort_spec (l : List Path) : (stableSort pathLess l).Perm l
    ∧ (stableSort pathLess l).Pairwise (fun a c => Path.cmp a c ≠ .gt) := by
  have h : BadLess (fun _ : Path => false) PKey.mk pathLess :=
    ⟨fun _ _ h => (by cases h), fun _ _ _ h => (by cases h), fun a c _ _ => by
      unfold pathLess
      rw [beq_iff_eq]
      rfl⟩
  have hs := h.mergeSort_sorted (stableSort_derivation pathLess l)
  refine ⟨hs.perm, ?_⟩
  obtain ⟨f, r, e, hf, -, hr⟩ := hs.split
  rw [e]
  cases f with
  | nil => exact hr
  | cons x f => exact absurd (hf x (.head _)) (by simp)

theorem dedup_spec {l : List Path} (h : l.Pairwise (fun a c => Path.cmp a c ≠ .gt)) :
    (dedup l).Pairwise (fun a c => Path.cmp a c = .lt) ∧ (∀ f, f ∈ dedup l ↔ f ∈ l) ∧ (dedup l).length ≤ l.length := by
  induction l with
  | nil => simp [dedup]
  | cons x l ih =>
    obtain ⟨hx, hl⟩ := List.pairwise_cons.1 h
    obtain ⟨i1, i2, i3⟩ := ih hl
    match l with
    | [] => simp [dedup]
    | y :: l =>
      rw [dedup]
      split
      · rename_i hxy
        subst hxy
        refine ⟨i1, fun f => ?_, by simp only [List.length_cons] at i3 ⊢; omega⟩
        rw [i2]; simp
      · rename_i hxy
        refine ⟨List.pairwise_cons.2 ⟨fun f hf => ?_, i1⟩, fun f => ?_, by simp only [List.length_cons] at i3 ⊢; omega⟩
        · rw [i2] at hf
          have hxy' : Path.cmp x y = .lt := by
            have := hx y (by simp)
            cases e : Path.cmp x y with
            | lt => rfl
            | eq => exact absurd ((pathCmp_eq x y).1 e) hxy
            | gt => exact absurd e this
          rcases List.mem_cons.1 hf with rfl | hf
          · exact hxy'
          · have hyf := (List.pairwise_cons.1 hl).1 f hf
            cases e : Path.cmp y f with
            | lt => exact pathCmp_trans _ _ _ hxy' e
            | eq => rw [pathCmp_eq] at e; rw [← e]; exact hxy'
            | gt => exact absurd e hyf
        · simp [i2]

/-- C38: a listing succeeds exactly if every piece of the pattern can be globbed and the matches, counted with repetitions but without
`mod.rs` files, do not exceed the limit.  The result is the set of these matches, in strictly ascending order.  The state is unchanged. -/
theorem C38_listed (base : Path) (pattern : Str) (maxFiles : Nat) (s s' : Run W) (files : List Path) :
    listFiles base pattern maxFiles s = (.ok files, s') ↔ Listed W s.state base pattern maxFiles files
      ∧ ∃ ps, Pieces pattern ps ∧ s' = ⟨s.state, s.log ++ ps.map fun p => .glob (base.display ++ str% "/" ++ p)⟩ := by
  unfold listFiles Listed
  rw [Act.bind_ok]
  constructor
  · rintro ⟨paths, s1, h1, h2⟩
    obtain ⟨ms, f1, f2, f3, f4⟩ := (listLoop_ok base maxFiles _ [] paths (by simp) s s1).1 h1
    rw [Act.pure_run] at h2
    cases h2
    rw [List.nil_append] at f2
    subst f2
    obtain ⟨g1, g2⟩ := pathSort_spec ms.flatten
    obtain ⟨d1, d2, -⟩ := dedup_spec g2
    exact ⟨⟨_, ms, splitChar_pieces pattern, f1, f3, d1, fun f => by rw [d2, g1.mem_iff]⟩, _, splitChar_pieces pattern, f4⟩
  · rintro ⟨⟨ps, ms, hp, f1, f3, d1, d2⟩, ps', hp', rfl⟩
    cases pieces_unique hp' hp
    cases pieces_unique hp (splitChar_pieces pattern)
    refine ⟨ms.flatten, _, (listLoop_ok base maxFiles _ [] _ (by simp) s _).2 ⟨ms, f1, rfl, f3, rfl⟩, ?_⟩
    rw [Act.pure_run]
    obtain ⟨g1, g2⟩ := pathSort_spec ms.flatten
    obtain ⟨e1, e2, -⟩ := dedup_spec g2
    have : dedup (stableSort pathLess ms.flatten) = files := by
      apply sorted_ext (cmp := Path.cmp) e1 d1
      intro f
      rw [e2, g1.mem_iff, d2]
    rw [this]

/-- C38: never more files than the limit. -/
theorem C38_limit (base : Path) (pattern : Str) (maxFiles : Nat) (s s' : Run W) (files : List Path)
    (h : listFiles base pattern maxFiles s = (.ok files, s')) : files.length ≤ maxFiles := by
  obtain ⟨⟨ps, ms, hp, f1, f3, d1, d2⟩, -⟩ := (C38_listed base pattern maxFiles s s' files).1 h
  refine Nat.le_trans ?_ f3
  have hn : files.Nodup := sorted_nodup (cmp := Path.cmp) d1
  exact hn.length_le_of_subset fun f hf => (d2 f).1 hf

theorem listLoop_clean (base : Path) (maxFiles : Nat) (ps : List Str) (acc : List Path) (s : Run W) :
    Clean (listLoop base maxFiles ps acc s).1 := by
  induction ps generalizing acc s with
  | nil => exact clean_ok _
  | cons p ps ih =>
    rw [listLoop, Act.bind_eq]
    have hc : Clean (runGlob (base.display ++ str% "/" ++ p) s).1 := by
      unfold runGlob
      dsimp only
      split
      · exact .inr ⟨_, rfl⟩
      · exact collectPaths_clean _
    split
    · split
      · exact .inr ⟨_, rfl⟩
      · exact ih _ _
    · exact .inr ⟨_, rfl⟩
    · rename_i h; rw [h] at hc; rcases hc with ⟨_, h⟩ | ⟨_, h⟩ <;> cases h
    · rename_i h; rw [h] at hc; rcases hc with ⟨_, h⟩ | ⟨_, h⟩ <;> cases h

/-- C38: everything else is an error (never a panic). -/
theorem C38_else_error (base : Path) (pattern : Str) (maxFiles : Nat) (s : Run W)
    (h : ∀ files, ¬ Listed W s.state base pattern maxFiles files) : ∃ m s', listFiles base pattern maxFiles s = (.err m, s') := by
  have hc : Clean (listFiles base pattern maxFiles s).1 := by
    unfold listFiles
    rw [Act.bind_eq]
    have := listLoop_clean base maxFiles (splitChar ',' pattern) [] s
    split
    · exact clean_ok _
    · exact .inr ⟨_, rfl⟩
    · rename_i h; rw [h] at this; rcases this with ⟨_, h⟩ | ⟨_, h⟩ <;> cases h
    · rename_i h; rw [h] at this; rcases this with ⟨_, h⟩ | ⟨_, h⟩ <;> cases h
  rcases hc with ⟨files, hf⟩ | ⟨m, hm⟩
  · exact absurd ((C38_listed base pattern maxFiles s _ files).1 (Prod.ext hf rfl)).1 (h files)
  · exact ⟨m, _, Prod.ext hm rfl⟩

/-! ### Checking out -/

/-- Run git and insist on success. -/
theorem runGit_expect_ok (what : Str) (args : List Str) (s s' : Run W) :
    (runGit args >>= fun out => Act.lift (expectSuccess what out)) s = (.ok (), s')
      ↔ ∃ L, Succeeds W s.state args L s'.state ∧ s'.log = s.log ++ L := by
  unfold Succeeds Success
  rw [Act.bind_ok]
  constructor
  · rintro ⟨out, s1, h1, h2⟩
    cases h1
    rw [Act.lift_run] at h2
    cases ho : (W.git s.state args).1 with
    | spawnFailed e => rw [ho] at h2; cases h2
    | exited ok o e u =>
      rw [ho] at h2
      cases ok with
      | false => cases h2
      | true =>
        cases h2
        exact ⟨_, ⟨_, Prod.ext ho rfl, ⟨o, e, u, rfl⟩, rfl⟩, rfl⟩
  · rintro ⟨L, ⟨out, h1, ⟨o, e, u, rfl⟩, rfl⟩, h3⟩
    refine ⟨_, _, rfl, ?_⟩
    rw [Act.lift_run, h1]
    cases s'
    dsimp only at h3
    subst h3
    rfl

/-- Run git and insist on success: the other outcome. -/
theorem runGit_expect_err (what : Str) (args : List Str) (s s' : Run W) :
    (∃ m, (runGit args >>= fun out => Act.lift (expectSuccess what out)) s = (.err m, s'))
      ↔ ∃ L, Fails W s.state args L s'.state ∧ s'.log = s.log ++ L := by
  unfold Fails Success
  have e : (runGit args >>= fun out => Act.lift (expectSuccess what out)) s
      = (expectSuccess what (W.git s.state args).1, (⟨(W.git s.state args).2, s.log ++ [.git args (W.git s.state args).1]⟩ : Run W)) := rfl
  rw [e]
  constructor
  · rintro ⟨m, h⟩
    obtain ⟨h1, rfl⟩ := Prod.mk.inj h
    refine ⟨_, ⟨_, Prod.ext rfl rfl, ?_, rfl⟩, rfl⟩
    rintro ⟨o, e, u, he⟩
    rw [he] at h1
    cases h1
  · rintro ⟨L, ⟨out, h1, h2, rfl⟩, h3⟩
    rw [h1]
    cases s'
    dsimp only at h3
    subst h3
    cases out with
    | spawnFailed e => exact ⟨_, rfl⟩
    | exited ok o e u =>
      cases ok with
      | false => exact ⟨_, rfl⟩
      | true => exact absurd ⟨o, e, u, rfl⟩ h2

theorem fetch_ok (refname : Str) (pull : Bool) (s s' : Run W) : (if pull then gitPull refname else pure () : Act W Unit) s = (.ok (), s')
    ↔ ∃ L, Fetched W refname pull s.state L s'.state ∧ s'.log = s.log ++ L := by
  unfold Fetched
  cases pull with
  | true =>
    rw [if_pos rfl]
    unfold gitPull
    rw [runGit_expect_ok]
    simp
  | false =>
    rw [if_neg (by simp), Act.pure_run]
    constructor
    · intro h; cases h; exact ⟨[], .inr ⟨rfl, rfl, rfl⟩, by simp⟩
    · rintro ⟨L, ⟨h, -⟩ | ⟨-, rfl, h⟩, hl⟩
      · cases h
      · cases s'; cases s; simp at h hl; rw [h, hl]

theorem fetch_err (refname : Str) (pull : Bool) (s s' : Run W) :
    (∃ m, (if pull then gitPull refname else pure () : Act W Unit) s = (.err m, s'))
      ↔ ∃ L, pull = true ∧ Fails W s.state [str% "fetch", str% "origin", refname] L s'.state ∧ s'.log = s.log ++ L := by
  cases pull with
  | true =>
    rw [if_pos rfl]
    unfold gitPull
    rw [runGit_expect_err]
    simp
  | false =>
    rw [if_neg (by simp), Act.pure_run]
    simp

theorem succeeds_or_fails (s : W.State) (args : List Str) : ∃ L s', (Succeeds W s args L s' ∨ Fails W s args L s') := by
  refine ⟨[.git args (W.git s args).1], (W.git s args).2, ?_⟩
  by_cases h : Success (W.git s args).1
  · exact .inl ⟨_, rfl, h, rfl⟩
  · exact .inr ⟨_, rfl, h, rfl⟩

theorem not_both {s : W.State} {args : List Str} {L L' : List Event} {s1 s2 : W.State} (h : Succeeds W s args L s1) (h' : Fails W s args L' s2) :
    False := by
  obtain ⟨o, h1, h2, -⟩ := h
  obtain ⟨o', h1', h2', -⟩ := h'
  rw [h1] at h1'
  cases h1'
  exact h2' h2

/-- The second half of `git_reset`. -/
def resetTail (refname : Str) : Act W Unit := do
  let out ← runGit [str% "reset", str% "--hard", str% "origin/" ++ refname]
  match out with
  | .exited true _ _ _ => pure ()
  | _ => do
    let out ← runGit [str% "reset", str% "--hard", refname]
    Act.lift (expectSuccess (str% "Failed to reset branch") out)

theorem resetTail_cases (refname : Str) (s : Run W) :
    (∃ s1, Succeeds W s.state [str% "reset", str% "--hard", str% "origin/" ++ refname] [.git [str% "reset", str% "--hard", str% "origin/" ++ refname] (W.git s.state [str% "reset", str% "--hard", str% "origin/" ++ refname]).1] s1
        ∧ resetTail refname s = (.ok (), ⟨s1, s.log ++ [.git [str% "reset", str% "--hard", str% "origin/" ++ refname] (W.git s.state [str% "reset", str% "--hard", str% "origin/" ++ refname]).1]⟩))
    ∨ ∃ L s1, Fails W s.state [str% "reset", str% "--hard", str% "origin/" ++ refname] L s1
        ∧ resetTail refname s = (runGit [str% "reset", str% "--hard", refname] >>= fun out =>
            Act.lift (expectSuccess (str% "Failed to reset branch") out)) ⟨s1, s.log ++ L⟩ := by
  have e : resetTail refname s = (match (W.git s.state [str% "reset", str% "--hard", str% "origin/" ++ refname]).1 with
      | .exited true _ _ _ => pure ()
      | _ => do
        let out ← runGit [str% "reset", str% "--hard", refname]
        Act.lift (expectSuccess (str% "Failed to reset branch") out) : Act W Unit)
      ⟨(W.git s.state [str% "reset", str% "--hard", str% "origin/" ++ refname]).2,
        s.log ++ [.git [str% "reset", str% "--hard", str% "origin/" ++ refname] (W.git s.state [str% "reset", str% "--hard", str% "origin/" ++ refname]).1]⟩ := rfl
  rw [e]
  cases ho : (W.git s.state [str% "reset", str% "--hard", str% "origin/" ++ refname]).1 with
  | spawnFailed m => exact .inr ⟨_, _, ⟨_, Prod.ext ho rfl, (by rintro ⟨_, _, _, h⟩; cases h), rfl⟩, rfl⟩
  | exited ok o m u =>
    cases ok with
    | false => exact .inr ⟨_, _, ⟨_, Prod.ext ho rfl, (by rintro ⟨_, _, _, h⟩; cases h), rfl⟩, rfl⟩
    | true => exact .inl ⟨_, ⟨_, Prod.ext ho rfl, ⟨_, _, _, rfl⟩, rfl⟩, rfl⟩

theorem succeeds_det {s : W.State} {args : List Str} {L L' : List Event} {s1 s2 : W.State} (h : Succeeds W s args L s1) (h' : Succeeds W s args L' s2) :
    L = L' ∧ s1 = s2 := by
  obtain ⟨o, h1, h2, rfl⟩ := h
  obtain ⟨o', h1', h2', rfl⟩ := h'
  rw [h1] at h1'
  cases h1'
  exact ⟨rfl, rfl⟩

theorem fails_det {s : W.State} {args : List Str} {L L' : List Event} {s1 s2 : W.State} (h : Fails W s args L s1) (h' : Fails W s args L' s2) :
    L = L' ∧ s1 = s2 := by
  obtain ⟨o, h1, h2, rfl⟩ := h
  obtain ⟨o', h1', h2', rfl⟩ := h'
  rw [h1] at h1'
  cases h1'
  exact ⟨rfl, rfl⟩

theorem run_ext {s s' : Run W} (h1 : s.state = s'.state) (h2 : s.log = s'.log) : s = s' := by
  cases s; cases s'; cases h1; cases h2; rfl

theorem resetTail_ok (refname : Str) (s s' : Run W) : resetTail refname s = (.ok (), s')
    ↔ ∃ L, (Succeeds W s.state [str% "reset", str% "--hard", str% "origin/" ++ refname] L s'.state
      ∨ ∃ s1 L2 L3, Fails W s.state [str% "reset", str% "--hard", str% "origin/" ++ refname] L2 s1
        ∧ Succeeds W s1 [str% "reset", str% "--hard", refname] L3 s'.state ∧ L = L2 ++ L3) ∧ s'.log = s.log ++ L := by
  rcases resetTail_cases refname s with ⟨s1, h1, h2⟩ | ⟨L, s1, h1, h2⟩
  · rw [h2]
    constructor
    · intro h
      cases h
      exact ⟨_, .inl h1, rfl⟩
    · rintro ⟨L, h | ⟨s2, L2, L3, h, -⟩, hl⟩
      · obtain ⟨rfl, rfl⟩ := succeeds_det h1 h
        exact Prod.ext rfl (run_ext rfl hl.symm)
      · exact (not_both h1 h).elim
  · rw [h2, runGit_expect_ok]
    constructor
    · rintro ⟨L', h3, h4⟩
      exact ⟨_, .inr ⟨_, _, _, h1, h3, rfl⟩, by rw [h4, List.append_assoc]⟩
    · rintro ⟨L', h | ⟨s2, L2, L3, h3, h4, rfl⟩, hl⟩
      · exact (not_both h h1).elim
      · obtain ⟨rfl, rfl⟩ := fails_det h1 h3
        exact ⟨_, h4, by rw [hl, List.append_assoc]⟩

theorem resetTail_err (refname : Str) (s s' : Run W) : (∃ m, resetTail refname s = (.err m, s'))
    ↔ ∃ L, (∃ s1 L2 L3, Fails W s.state [str% "reset", str% "--hard", str% "origin/" ++ refname] L2 s1
        ∧ Fails W s1 [str% "reset", str% "--hard", refname] L3 s'.state ∧ L = L2 ++ L3) ∧ s'.log = s.log ++ L := by
  rcases resetTail_cases refname s with ⟨s1, h1, h2⟩ | ⟨L, s1, h1, h2⟩
  · rw [h2]
    constructor
    · rintro ⟨m, h⟩
      cases h
    · rintro ⟨L, ⟨s2, L2, L3, h, -⟩, hl⟩
      exact (not_both h1 h).elim
  · rw [h2, runGit_expect_err]
    constructor
    · rintro ⟨L', h3, h4⟩
      exact ⟨_, ⟨_, _, _, h1, h3, rfl⟩, by rw [h4, List.append_assoc]⟩
    · rintro ⟨L', ⟨s2, L2, L3, h3, h4, rfl⟩, hl⟩
      obtain ⟨rfl, rfl⟩ := fails_det h1 h3
      exact ⟨_, h4, by rw [hl, List.append_assoc]⟩

theorem gitCheckout_eq (refname : Str) (pull force : Bool) : (gitCheckout refname pull force : Act W Unit)
    = ((if pull then gitPull refname else pure ()) >>= fun _ => if force then resetTail refname else
        (runGit [str% "checkout", refname] >>= fun out => Act.lift (expectSuccess (str% "Failed to checkout branch") out))) := by
  cases force <;> cases pull <;> rfl

theorem parsedAs_iff {env : Env} {repo : Path} {ign : Bool} {s : W.State} {paths : List Path} {exts : List ChromaticExtrinsic} :
    ParsedAs W env repo ign s paths exts ↔
      (ign = true ∧ tryParseFilesInRepo env (W.fs s) repo paths = .ok exts) ∨ (ign = false ∧ parseFilesInRepo env (W.fs s) repo paths = .ok exts) := by
  unfold ParsedAs tryParseFilesInRepo parseFilesInRepo
  rw [tryParseAll_ok, C49_all]
  simp only [parseFileInRepo_ok, parseFileInRepo_refused]
  cases ign <;> simp

/-- C41/C42: checking out succeeds exactly in the ways of the specification. -/
theorem C42_checkout_ok (refname : Str) (pull force : Bool) (s s' : Run W) :
    gitCheckout refname pull force s = (.ok (), s') ↔ ∃ L, CheckedOut W refname pull force s.state L s'.state ∧ s'.log = s.log ++ L := by
  rw [gitCheckout_eq, Act.bind_ok]
  unfold CheckedOut
  constructor
  · rintro ⟨⟨⟩, s1, h1, h2⟩
    obtain ⟨L0, f1, f2⟩ := (fetch_ok _ _ _ _).1 h1
    cases force with
    | true =>
      rw [if_pos rfl] at h2
      obtain ⟨L, h, hl⟩ := (resetTail_ok _ _ _).1 h2
      refine ⟨L0 ++ L, ⟨L0, _, L, f1, rfl, ?_⟩, by rw [hl, f2, List.append_assoc]⟩
      rcases h with h | h
      · exact .inr (.inl ⟨rfl, h⟩)
      · exact .inr (.inr ⟨rfl, h⟩)
    | false =>
      rw [if_neg (by simp)] at h2
      obtain ⟨L, h, hl⟩ := (runGit_expect_ok _ _ _ _).1 h2
      exact ⟨L0 ++ L, ⟨L0, _, L, f1, rfl, .inl ⟨rfl, h⟩⟩, by rw [hl, f2, List.append_assoc]⟩
  · rintro ⟨L, ⟨L0, s0, L1, f1, rfl, h⟩, hl⟩
    refine ⟨(), ⟨s0, s.log ++ L0⟩, (fetch_ok _ _ _ _).2 ⟨L0, f1, rfl⟩, ?_⟩
    have hl' : s'.log = (s.log ++ L0) ++ L1 := by rw [hl, List.append_assoc]
    rcases h with ⟨rfl, h⟩ | ⟨rfl, h⟩ | ⟨rfl, h⟩
    · rw [if_neg (by simp)]
      exact (runGit_expect_ok _ _ _ _).2 ⟨L1, h, hl'⟩
    · rw [if_pos rfl]
      exact (resetTail_ok _ _ _).2 ⟨L1, .inl h, hl'⟩
    · rw [if_pos rfl]
      exact (resetTail_ok _ _ _).2 ⟨L1, .inr h, hl'⟩

theorem bind_err {α β : Type} {x : Act W α} {f : α → Act W β} {s s' : Run W} :
    (∃ m, (x >>= f) s = (.err m, s')) ↔ (∃ m, x s = (.err m, s')) ∨ ∃ a s1, x s = (.ok a, s1) ∧ ∃ m, f a s1 = (.err m, s') := by
  rw [Act.bind_eq]
  cases hx : x s with
  | mk r s1 =>
    cases r with
    | ok a =>
      constructor
      · intro h; exact .inr ⟨a, s1, rfl, h⟩
      · rintro (⟨m, h⟩ | ⟨a', s1', h1, h2⟩)
        · cases h
        · cases h1; exact h2
    | err m =>
      constructor
      · rintro ⟨_, h⟩; cases h; exact .inl ⟨m, rfl⟩
      · rintro (⟨m', h⟩ | ⟨a', s1', h1, h2⟩)
        · cases h; exact ⟨m, rfl⟩
        · cases h1
    | panic => simp
    | diverge => simp

/-- C42: checking out fails exactly in the ways of the specification. -/
theorem C42_checkout_err (refname : Str) (pull force : Bool) (s s' : Run W) :
    (∃ m, gitCheckout refname pull force s = (.err m, s'))
      ↔ ∃ L, CheckoutFails W refname pull force s.state L s'.state ∧ s'.log = s.log ++ L := by
  rw [gitCheckout_eq, bind_err, fetch_err]
  unfold CheckoutFails
  constructor
  · rintro (⟨L, h1, h2, h3⟩ | ⟨⟨⟩, s1, h1, h2⟩)
    · exact ⟨L, .inl ⟨h1, h2⟩, h3⟩
    obtain ⟨L0, f1, f2⟩ := (fetch_ok _ _ _ _).1 h1
    cases force with
    | true =>
      rw [if_pos rfl] at h2
      obtain ⟨L, h, hl⟩ := (resetTail_err _ _ _).1 h2
      exact ⟨L0 ++ L, .inr ⟨L0, _, L, f1, rfl, .inr ⟨rfl, h⟩⟩, by rw [hl, f2, List.append_assoc]⟩
    | false =>
      rw [if_neg (by simp)] at h2
      obtain ⟨L, h, hl⟩ := (runGit_expect_err _ _ _ _).1 h2
      exact ⟨L0 ++ L, .inr ⟨L0, _, L, f1, rfl, .inl ⟨rfl, h⟩⟩, by rw [hl, f2, List.append_assoc]⟩
  · rintro ⟨L, ⟨h1, h2⟩ | ⟨L0, s0, L1, f1, rfl, h⟩, hl⟩
    · exact .inl ⟨L, h1, h2, hl⟩
    refine .inr ⟨(), ⟨s0, s.log ++ L0⟩, (fetch_ok _ _ _ _).2 ⟨L0, f1, rfl⟩, ?_⟩
    have hl' : s'.log = (s.log ++ L0) ++ L1 := by rw [hl, List.append_assoc]
    rcases h with ⟨rfl, h⟩ | ⟨rfl, h⟩
    · rw [if_neg (by simp)]
      exact (runGit_expect_err _ _ _ _).2 ⟨L1, h, hl'⟩
    · rw [if_pos rfl]
      exact (resetTail_err _ _ _).2 ⟨L1, h, hl'⟩

theorem act_clean_bind {α β : Type} {x : Act W α} {f : α → Act W β} (hx : ∀ s, Clean (x s).1) (hf : ∀ a s, Clean (f a s).1) (s : Run W) :
    Clean ((x >>= f) s).1 := by
  rw [Act.bind_eq]
  have := hx s
  split
  · exact hf _ _
  · exact .inr ⟨_, rfl⟩
  · rename_i h; rw [h] at this; rcases this with ⟨_, h⟩ | ⟨_, h⟩ <;> cases h
  · rename_i h; rw [h] at this; rcases this with ⟨_, h⟩ | ⟨_, h⟩ <;> cases h

theorem expect_clean (what : Str) (out : GitOut) : Clean (expectSuccess what out) := by
  unfold expectSuccess
  split
  · exact .inr ⟨_, rfl⟩
  · exact .inr ⟨_, rfl⟩
  · exact clean_ok _

/-- C42: checking out never panics. -/
theorem C42_checkout_no_panic (refname : Str) (pull force : Bool) (s : Run W) : Clean (gitCheckout refname pull force s).1 := by
  rw [gitCheckout_eq]
  refine act_clean_bind (fun s => ?_) (fun a s => ?_) s
  · split
    · exact act_clean_bind (fun s => clean_ok _) (fun _ _ => expect_clean _ _) s
    · exact clean_ok _
  · split
    · refine act_clean_bind (fun s => clean_ok _) (fun o s => ?_) s
      split
      · exact clean_ok _
      · exact act_clean_bind (fun s => clean_ok _) (fun _ _ => expect_clean _ _) s
    · exact act_clean_bind (fun s => clean_ok _) (fun _ _ => expect_clean _ _) s

/-! ### Comparing commits -/

theorem hasDotDot_iff (s : Str) : hasDotDot s = true ↔ DotDot s := by
  unfold DotDot
  fun_induction hasDotDot s with
  | case1 s => simp; exact ⟨[], s, rfl⟩
  | case2 x s h ih =>
    rw [ih, List.infix_cons_iff]
    constructor
    · exact .inr
    · rintro (h' | h')
      · obtain ⟨t, ht⟩ := h'
        cases ht
        exact absurd rfl (h t rfl)
      · exact h'
  | case3 => simp

/-- What is logged while listing the files of a pattern. -/
def Spec.globs (repo : Path) (ps : List Str) : List Event := ps.map fun p => .glob (repo.display ++ str% "/" ++ p)

/-- C41: a comparison of two revisions succeeds exactly if the pattern is allowed, the old revision can be checked out, its files can be
listed and parsed, then the new revision can be checked out, its files can be listed and parsed, and the two can be compared.  The old
extrinsics are those of the files found after checking out the old revision (`s1`), the new ones those found after checking out the new
revision (`s2`), and nothing else is done: the log consists of these commands in this order, and the state is the one after the second
checkout. -/
theorem C41_compare_commits (b : Build) (ho : HashOrder) (rx : RegexEngine) (env : Env) (repo : Path) (old new : Str) (params : CompareParams)
    (filter : FilterParams) (pattern : Str) (maxFiles : Nat) (s s' : Run W) (diff : List ExtrinsicDiff) :
    compareCommits b ho rx env repo old new params filter pattern maxFiles s = (.ok diff, s') ↔
      ¬ DotDot pattern ∧ ∃ ps G1 s1 files1 olds G2 s2 files2 news, Pieces pattern ps
        ∧ CheckedOut W old params.shouldPull params.gitForce s.state G1 s1
        ∧ Listed W s1 repo pattern maxFiles files1 ∧ ParsedAs W env repo params.ignoreErrors s1 files1 olds
        ∧ CheckedOut W new params.shouldPull params.gitForce s1 G2 s2
        ∧ Listed W s2 repo pattern maxFiles files2 ∧ ParsedAs W env repo params.ignoreErrors s2 files2 news
        ∧ compareFiles b ho rx olds news params filter = .ok diff
        ∧ s'.state = s2
        ∧ s'.log = s.log ++ G1 ++ globs repo ps ++ [.parse files1] ++ G2 ++ globs repo ps ++ [.parse files2] := by
  have hparse : ∀ (paths : List Path) (r r' : Run W) (exts : List ChromaticExtrinsic),
      parseListed env repo params.ignoreErrors paths r = (.ok exts, r')
        ↔ ParsedAs W env repo params.ignoreErrors r.state paths exts ∧ r' = ⟨r.state, r.log ++ [.parse paths]⟩ := by
    intro paths r r' exts
    rw [parsedAs_iff]
    unfold parseListed
    cases params.ignoreErrors
    · simp only [Prod.mk.injEq]
      constructor
      · rintro ⟨h1, h2⟩; exact ⟨.inr ⟨by trivial, h1⟩, h2.symm⟩
      · rintro ⟨⟨h, -⟩ | ⟨-, h1⟩, h2⟩
        · cases h
        · exact ⟨h1, h2.symm⟩
    · simp only [Prod.mk.injEq]
      constructor
      · rintro ⟨h1, h2⟩; exact ⟨.inl ⟨by trivial, h1⟩, h2.symm⟩
      · rintro ⟨⟨-, h1⟩ | ⟨h, -⟩, h2⟩
        · exact ⟨h1, h2.symm⟩
        · cases h
  unfold compareCommits
  by_cases hd : hasDotDot pattern = true
  · rw [if_pos hd]
    have := (hasDotDot_iff pattern).1 hd
    constructor
    · intro h; cases h
    · rintro ⟨h, -⟩; exact absurd this h
  rw [if_neg hd]
  have hd' : ¬ DotDot pattern := fun h => hd ((hasDotDot_iff pattern).2 h)
  constructor
  · intro h
    obtain ⟨⟨⟩, r1, h1, h⟩ := Act.bind_ok.1 h
    obtain ⟨files1, r2, h2, h⟩ := Act.bind_ok.1 h
    obtain ⟨olds, r3, h3, h⟩ := Act.bind_ok.1 h
    obtain ⟨⟨⟩, r4, h4, h⟩ := Act.bind_ok.1 h
    obtain ⟨files2, r5, h5, h⟩ := Act.bind_ok.1 h
    obtain ⟨news, r6, h6, h⟩ := Act.bind_ok.1 h
    obtain ⟨G1, g1, l1⟩ := (C42_checkout_ok _ _ _ _ _).1 (Act.mapErr_ok.1 h1)
    obtain ⟨g2, ps, hp, rfl⟩ := (C38_listed _ _ _ _ _ _).1 h2
    obtain ⟨g3, rfl⟩ := (hparse _ _ _ _).1 h3
    obtain ⟨G2, g4, l4⟩ := (C42_checkout_ok _ _ _ _ _).1 (Act.mapErr_ok.1 h4)
    obtain ⟨g5, ps', hp', rfl⟩ := (C38_listed _ _ _ _ _ _).1 h5
    obtain ⟨g6, rfl⟩ := (hparse _ _ _ _).1 h6
    cases pieces_unique hp' hp
    rw [Act.lift_run] at h
    obtain ⟨h7, rfl⟩ := Prod.mk.inj h
    refine ⟨hd', ps, G1, r1.state, files1, olds, G2, r4.state, files2, news, hp, g1, g2, g3, g4, g5, g6, h7, rfl, ?_⟩
    simp only [l4, l1, globs, List.append_assoc]
  · rintro ⟨-, ps, G1, s1, files1, olds, G2, s2, files2, news, hp, g1, g2, g3, g4, g5, g6, h7, rfl, hl⟩
    refine Act.bind_ok.2 ⟨(), ⟨s1, s.log ++ G1⟩, Act.mapErr_ok.2 ((C42_checkout_ok _ _ _ _ _).2 ⟨G1, g1, rfl⟩), ?_⟩
    refine Act.bind_ok.2 ⟨files1, _, (C38_listed _ _ _ _ _ _).2 ⟨g2, ps, hp, rfl⟩, ?_⟩
    refine Act.bind_ok.2 ⟨olds, _, (hparse _ _ _ _).2 ⟨g3, rfl⟩, ?_⟩
    refine Act.bind_ok.2 ⟨(), ⟨s'.state, (s.log ++ G1 ++ globs repo ps ++ [.parse files1]) ++ G2⟩, Act.mapErr_ok.2 ((C42_checkout_ok _ _ _ _ _).2 ⟨G2, g4, rfl⟩), ?_⟩
    refine Act.bind_ok.2 ⟨files2, _, (C38_listed _ _ _ _ _ _).2 ⟨g5, ps, hp, rfl⟩, ?_⟩
    refine Act.bind_ok.2 ⟨news, _, (hparse _ _ _ _).2 ⟨g6, rfl⟩, ?_⟩
    rw [Act.lift_run, h7]
    exact Prod.ext rfl (run_ext rfl (by rw [hl]; rfl))

/-- C39: a pattern with `..` is refused before anything is done. -/
theorem C39_dotdot_refused (b : Build) (ho : HashOrder) (rx : RegexEngine) (env : Env) (repo : Path) (old new : Str) (params : CompareParams)
    (filter : FilterParams) (pattern : Str) (maxFiles : Nat) (s : Run W) (h : DotDot pattern) :
    ∃ m, compareCommits b ho rx env repo old new params filter pattern maxFiles s = (.err m, s) := by
  unfold compareCommits
  rw [if_pos ((hasDotDot_iff pattern).2 h)]
  exact ⟨_, rfl⟩

theorem emits_runGit {Q : Event → Prop} {args : List Str} (h : ∀ out, Q (.git args out)) : Emits Q (runGit args : Act W GitOut) :=
  fun s => ⟨[.git args (W.git s.state args).1], rfl, by simpa using h _⟩

theorem emits_expect {Q : Event → Prop} {args : List Str} {what : Str} (h : ∀ out, Q (.git args out)) :
    Emits Q (runGit args >>= fun out => Act.lift (expectSuccess what out) : Act W Unit) :=
  emits_bind (emits_runGit h) fun _ => emits_lift _ _

/-- The commands by which a revision may be checked out. -/
def Spec.CheckoutCommand (refname : Str) (pull force : Bool) (args : List Str) : Prop :=
  (pull = true ∧ args = [str% "fetch", str% "origin", refname]) ∨ (force = false ∧ args = [str% "checkout", refname])
    ∨ (force = true ∧ args = [str% "reset", str% "--hard", str% "origin/" ++ refname])
    ∨ (force = true ∧ args = [str% "reset", str% "--hard", refname])

theorem emits_checkout {Q : Event → Prop} {refname : Str} {pull force : Bool}
    (h : ∀ args out, CheckoutCommand refname pull force args → Q (.git args out)) : Emits Q (gitCheckout refname pull force : Act W Unit) := by
  rw [gitCheckout_eq]
  refine emits_bind (emits_ite (fun hp => emits_expect fun out => h _ _ (.inl ⟨hp, rfl⟩)) fun _ => emits_pure _ _) fun _ => emits_ite (fun hf => ?_) fun hf => ?_
  · refine emits_bind (emits_runGit fun out => h _ _ (.inr (.inr (.inl ⟨hf, rfl⟩)))) fun out => ?_
    split
    · exact emits_pure _ _
    · exact emits_expect fun out => h _ _ (.inr (.inr (.inr ⟨hf, rfl⟩)))
  · exact emits_expect fun out => h _ _ (.inr (.inl ⟨by simpa using hf, rfl⟩))

theorem emits_listLoop {Q : Event → Prop} {base : Path} {maxFiles : Nat} (ps : List Str)
    (h : ∀ p ∈ ps, Q (.glob (base.display ++ str% "/" ++ p))) (acc : List Path) : Emits Q (listLoop base maxFiles ps acc : Act W (List Path)) := by
  induction ps generalizing acc with
  | nil => exact emits_pure _ _
  | cons p ps ih =>
    rw [listLoop]
    refine emits_bind (fun s => ⟨[.glob (base.display ++ str% "/" ++ p)], rfl, by simpa using h p (.head _)⟩) fun fs => ?_
    exact emits_ite (fun _ => emits_lift _ _) fun _ => ih (fun p hp => h p (.tail _ hp)) _

theorem emits_listFiles {Q : Event → Prop} {base : Path} {pattern : Str} {maxFiles : Nat}
    (h : ∀ ps, Pieces pattern ps → ∀ p ∈ ps, Q (.glob (base.display ++ str% "/" ++ p))) :
    Emits Q (listFiles base pattern maxFiles : Act W (List Path)) :=
  emits_bind (emits_listLoop _ (h _ (splitChar_pieces pattern)) _) fun _ => emits_pure _ _

/-- Everything that a comparison of revisions does, whether it succeeds or not. -/
theorem emits_compareCommits {Q : Event → Prop} {b : Build} {ho : HashOrder} {rx : RegexEngine} {env : Env} {repo : Path} {old new : Str}
    {params : CompareParams} {filter : FilterParams} {pattern : Str} {maxFiles : Nat}
    (hg : ¬ DotDot pattern → ∀ r, (r = old ∨ r = new) → ∀ args out, CheckoutCommand r params.shouldPull params.gitForce args → Q (.git args out))
    (hl : ¬ DotDot pattern → ∀ ps, Pieces pattern ps → ∀ p ∈ ps, Q (.glob (repo.display ++ str% "/" ++ p)))
    (hp : ∀ files, Q (.parse files)) :
    Emits Q (compareCommits b ho rx env repo old new params filter pattern maxFiles : Act W (List ExtrinsicDiff)) := by
  have hparse : ∀ paths, Emits Q (parseListed env repo params.ignoreErrors paths : Act W _) := fun paths s => ⟨[.parse paths], rfl, by simpa using hp _⟩
  unfold compareCommits
  refine emits_ite (fun _ => emits_lift _ _) fun hd => ?_
  have hd' : ¬ DotDot pattern := fun h => hd ((hasDotDot_iff pattern).2 h)
  exact emits_bind (emits_mapErr (emits_checkout (hg hd' _ (.inl rfl)))) fun _ => emits_bind (emits_listFiles (hl hd')) fun _ => emits_bind (hparse _) fun _ =>
    emits_bind (emits_mapErr (emits_checkout (hg hd' _ (.inr rfl)))) fun _ => emits_bind (emits_listFiles (hl hd')) fun _ => emits_bind (hparse _) fun _ =>
      emits_lift _ _

theorem piece_infix {pattern : Str} {ps : List Str} (h : Pieces pattern ps) {p : Str} (hp : p ∈ ps) : p <:+: pattern := by
  obtain ⟨-, -, rfl⟩ := h
  induction ps with
  | nil => cases hp
  | cons a ps ih =>
    cases ps with
    | nil => simp at hp; subst hp; exact List.infix_rfl
    | cons c ps =>
      rw [joinStr]
      rcases List.mem_cons.1 hp with rfl | hp
      · exact ⟨[], _, by simp [List.append_assoc]; rfl⟩
      · exact (ih hp).trans ⟨a ++ str% ",", [], by simp⟩

/-- C39: whatever is globbed is a piece of the pattern below the repository, and that piece does not contain `..`. -/
theorem C39_below_repo (b : Build) (ho : HashOrder) (rx : RegexEngine) (env : Env) (repo : Path) (old new : Str) (params : CompareParams)
    (filter : FilterParams) (pattern : Str) (maxFiles : Nat) (s : Run W) :
    ∃ L, (compareCommits b ho rx env repo old new params filter pattern maxFiles s).2.log = s.log ++ L
      ∧ ∀ g, Event.glob g ∈ L → ∃ p, g = repo.display ++ str% "/" ++ p ∧ p <:+: pattern ∧ ',' ∉ p ∧ ¬ DotDot p := by
  obtain ⟨L, h1, h2⟩ := emits_compareCommits (W := W) (Q := fun e => ∀ g, e = Event.glob g → ∃ p, g = repo.display ++ str% "/" ++ p ∧ p <:+: pattern ∧ ',' ∉ p ∧ ¬ DotDot p)
    (b := b) (ho := ho) (rx := rx) (env := env) (repo := repo) (old := old) (new := new) (params := params) (filter := filter) (pattern := pattern) (maxFiles := maxFiles)
    (fun _ _ _ _ _ _ _ h => by cases h)
    (fun hd ps hps p hp g h => by
      cases h
      have hi := piece_infix hps hp
      exact ⟨p, rfl, hi, hps.2.1 p hp, fun h => hd (List.IsInfix.trans h hi)⟩)
    (fun _ _ h => by cases h) s
  exact ⟨L, h1, fun g hg => h2 _ hg g rfl⟩

/-- C40: fetching happens only if it is requested and the tool is not offline. -/
theorem C40_no_fetch (b : Build) (ho : HashOrder) (rx : RegexEngine) (env : Env) (repo : Path) (old new : Str) (params : CompareParams)
    (filter : FilterParams) (pattern : Str) (maxFiles : Nat) (s : Run W) (h : params.offline = true ∨ params.gitPull = false) :
    ∃ L, (compareCommits b ho rx env repo old new params filter pattern maxFiles s).2.log = s.log ++ L
      ∧ ∀ args out, Event.git args out ∈ L → args.head? = some (str% "checkout") ∨ args.head? = some (str% "reset") := by
  have hs : params.shouldPull = false := by
    unfold CompareParams.shouldPull
    rcases h with h | h <;> simp [h]
  obtain ⟨L, h1, h2⟩ := emits_compareCommits (W := W) (Q := fun e => ∀ args out, e = Event.git args out → args.head? = some (str% "checkout") ∨ args.head? = some (str% "reset"))
    (b := b) (ho := ho) (rx := rx) (env := env) (repo := repo) (old := old) (new := new) (params := params) (filter := filter) (pattern := pattern) (maxFiles := maxFiles)
    (fun _ _ _ _ _ hc _ _ h => by
      cases h
      rw [hs] at hc
      rcases hc with ⟨h, -⟩ | ⟨-, rfl⟩ | ⟨-, rfl⟩ | ⟨-, rfl⟩
      · cases h
      · exact .inl rfl
      · exact .inr rfl
      · exact .inr rfl)
    (fun _ _ _ _ _ _ _ h => by cases h) (fun _ _ _ h => by cases h) s
  exact ⟨L, h1, fun args out hg => h2 _ hg args out rfl⟩

/-- C42: if the old revision cannot be checked out, the comparison fails, and nothing is read. -/
theorem C42_old_fails (b : Build) (ho : HashOrder) (rx : RegexEngine) (env : Env) (repo : Path) (old new : Str) (params : CompareParams)
    (filter : FilterParams) (pattern : Str) (maxFiles : Nat) (s : Run W) (hd : ¬ DotDot pattern) (G : List Event) (s1 : W.State)
    (h : CheckoutFails W old params.shouldPull params.gitForce s.state G s1) :
    ∃ m, compareCommits b ho rx env repo old new params filter pattern maxFiles s = (.err m, ⟨s1, s.log ++ G⟩) := by
  unfold compareCommits
  rw [if_neg (fun h => hd ((hasDotDot_iff pattern).1 h))]
  obtain ⟨m, hm⟩ := (C42_checkout_err _ _ _ s ⟨s1, s.log ++ G⟩).2 ⟨G, h, rfl⟩
  exact ⟨_, Act.bind_of_err (Act.mapErr_err.2 ⟨m, hm, rfl⟩)⟩

/-- C42: if the new revision cannot be checked out, the comparison fails, and nothing is read after the attempt. -/
theorem C42_new_fails (b : Build) (ho : HashOrder) (rx : RegexEngine) (env : Env) (repo : Path) (old new : Str) (params : CompareParams)
    (filter : FilterParams) (pattern : Str) (maxFiles : Nat) (s : Run W) (hd : ¬ DotDot pattern) (ps : List Str) (G1 G2 : List Event) (s1 s2 : W.State)
    (files1 : List Path) (olds : List ChromaticExtrinsic) (hp : Pieces pattern ps)
    (h1 : CheckedOut W old params.shouldPull params.gitForce s.state G1 s1)
    (h2 : Listed W s1 repo pattern maxFiles files1) (h3 : ParsedAs W env repo params.ignoreErrors s1 files1 olds)
    (h4 : CheckoutFails W new params.shouldPull params.gitForce s1 G2 s2) :
    ∃ m, compareCommits b ho rx env repo old new params filter pattern maxFiles s
      = (.err m, ⟨s2, s.log ++ G1 ++ globs repo ps ++ [.parse files1] ++ G2⟩) := by
  unfold compareCommits
  rw [if_neg (fun h => hd ((hasDotDot_iff pattern).1 h))]
  rw [Act.bind_of_ok (Act.mapErr_ok.2 ((C42_checkout_ok old _ _ s ⟨s1, s.log ++ G1⟩).2 ⟨G1, h1, rfl⟩))]
  have h2' : listFiles repo pattern maxFiles (⟨s1, s.log ++ G1⟩ : Run W) = (.ok files1, ⟨s1, s.log ++ G1 ++ globs repo ps⟩) :=
    (C38_listed repo pattern maxFiles _ _ files1).2 ⟨h2, ps, hp, rfl⟩
  rw [Act.bind_of_ok h2']
  have h3' : parseListed env repo params.ignoreErrors files1 (⟨s1, s.log ++ G1 ++ globs repo ps⟩ : Run W)
      = (.ok olds, ⟨s1, s.log ++ G1 ++ globs repo ps ++ [.parse files1]⟩) := by
    unfold parseListed
    rcases parsedAs_iff.1 h3 with ⟨e, h⟩ | ⟨e, h⟩ <;> simp [e, h]
  rw [Act.bind_of_ok h3']
  obtain ⟨m, hm⟩ := (C42_checkout_err new params.shouldPull params.gitForce ⟨s1, s.log ++ G1 ++ globs repo ps ++ [.parse files1]⟩
    ⟨s2, s.log ++ G1 ++ globs repo ps ++ [.parse files1] ++ G2⟩).2 ⟨G2, h4, rfl⟩
  exact ⟨_, Act.bind_of_err (Act.mapErr_err.2 ⟨m, hm, rfl⟩)⟩

/-- C42: every checkout either succeeds or fails, in the sense of the specification. -/
theorem C42_decided (refname : Str) (pull force : Bool) (s : W.State) :
    (∃ L s', CheckedOut W refname pull force s L s') ∨ ∃ L s', CheckoutFails W refname pull force s L s' := by
  rcases C42_checkout_no_panic refname pull force (⟨s, []⟩ : Run W) with ⟨⟨⟩, h⟩ | ⟨m, h⟩
  · obtain ⟨L, h1, -⟩ := (C42_checkout_ok refname pull force (⟨s, []⟩ : Run W) _).1 (Prod.ext h rfl)
    exact .inl ⟨L, _, h1⟩
  · obtain ⟨L, h1, -⟩ := (C42_checkout_err refname pull force (⟨s, []⟩ : Run W) _).1 ⟨m, Prod.ext h rfl⟩
    exact .inr ⟨L, _, h1⟩

/-! ### A concrete run -/

/-- A repository with the branches `v1` and `v2`; the state is the revision checked out, the content of every file is its name.  `mod.rs` is
among the matches, and every pattern matches the same files.  Only `origin/v2` is known as a remote branch. -/
def exWorld : World where
  State := Str
  git s args := match args with
    | [c, r] => if c = str% "checkout" ∧ (r = str% "v1" ∨ r = str% "v2") then (.exited true [] [] true, r) else (.exited false [] (str% "no such branch") true, s)
    | [c, _, r] =>
      if c = str% "fetch" then (.exited true [] [] true, s)
      else if r = str% "v1" ∨ r = str% "v2" then (.exited true [] [] true, r)
      else if r = str% "origin/v2" then (.exited true [] [] true, str% "v2")
      else (.exited false [] (str% "no such revision") true, s)
    | _ => (.spawnFailed (str% "no git"), s)
  glob _ p := if p = str% "r/[" then .error (str% "invalid") else
    .ok [.ok [.normal (str% "r"), .normal (str% "w.rs")], .ok [.normal (str% "r"), .normal (str% "mod.rs")], .ok [.normal (str% "r"), .normal (str% "a.rs")]]
  fs s _ := .ok s

/-- A weight function with a constant weight. -/
def exFn (digits : Str) : ImplFn :=
  { name := str% "transfer", attrs := [], output := some (.path false [str% "Weight"]),
    stmts := [.expr (.call (.path [str% "Weight", str% "from_ref_time"]) [.lit (.int digits)] false)] }

/-- `v1` has weight 10, `v2` has weight 20. -/
def exEnv : Env := ⟨fun c => .ok [.impl (.path false [str% "SubstrateWeight"]) [.fn (exFn (if c = str% "v1" then str% "10" else str% "20"))]], asciiClass⟩

/-- Run of the example. -/
def exRun (old new pattern : Str) (pull force : Bool) (max : Nat) : Res (List ExRow) × List Event :=
  let r := compareCommits (W := exWorld) .release idOrder exRegex exEnv [.normal (str% "r")] old new ⟨.base, .time, false, pull, force, false⟩ exFilter pattern max
    ⟨str% "start", []⟩
  (r.1.map (List.map exShow), r.2.log)

example : exRun (str% "v1") (str% "v2") (str% "*") false false 2 = (.ok [
      ⟨str% "a.rs", str% "transfer", some 10, some 20, some .changed, false⟩, ⟨str% "w.rs", str% "transfer", some 10, some 20, some .changed, false⟩],
    [.git [str% "checkout", str% "v1"] (.exited true [] [] true), .glob (str% "r/*"),
      .parse [[.normal (str% "r"), .normal (str% "a.rs")], [.normal (str% "r"), .normal (str% "w.rs")]],
      .git [str% "checkout", str% "v2"] (.exited true [] [] true), .glob (str% "r/*"),
      .parse [[.normal (str% "r"), .normal (str% "a.rs")], [.normal (str% "r"), .normal (str% "w.rs")]]]) := by decide +kernel

/-- Forced, with fetching: the remote branch is preferred, the local one is the fallback. -/
example : (exRun (str% "v1") (str% "v2") (str% "*") true true 2).2.filter (fun e => match e with | .git _ _ => true | _ => false) =
    [.git [str% "fetch", str% "origin", str% "v1"] (.exited true [] [] true),
      .git [str% "reset", str% "--hard", str% "origin/v1"] (.exited false [] (str% "no such revision") true), .git [str% "reset", str% "--hard", str% "v1"] (.exited true [] [] true),
      .git [str% "fetch", str% "origin", str% "v2"] (.exited true [] [] true), .git [str% "reset", str% "--hard", str% "origin/v2"] (.exited true [] [] true)] := by decide +kernel

/-- An unknown new revision: nothing is read after the failure. -/
example : exRun (str% "v1") (str% "v3") (str% "*") false false 2 = (.err (str% "\"Failed to checkout branch: no such branch\""),
    [.git [str% "checkout", str% "v1"] (.exited true [] [] true), .glob (str% "r/*"),
      .parse [[.normal (str% "r"), .normal (str% "a.rs")], [.normal (str% "r"), .normal (str% "w.rs")]],
      .git [str% "checkout", str% "v3"] (.exited false [] (str% "no such branch") true)]) := by decide +kernel

example : exRun (str% "v1") (str% "v2") (str% "a/../*") true true 2 = (.err (str% "Path pattern cannot contain '..'"), []) := by decide +kernel

/-- C38: files are counted before duplicates are removed.  Two patterns with the same two files exceed a limit of three. -/
theorem C38_duplicates_count : ∃ (W : World) (s : Run W) (base : Path) (files : List Path) (s1 : Run W) (m : Str) (s2 : Run W),
    listFiles base (str% "*,*") 4 s = (.ok files, s1) ∧ files.length = 2 ∧ listFiles base (str% "*,*") 3 s = (.err m, s2) := by
  refine ⟨exWorld, ⟨str% "start", []⟩, [.normal (str% "r")], [[.normal (str% "r"), .normal (str% "a.rs")], [.normal (str% "r"), .normal (str% "w.rs")]], _, _, _,
    rfl, rfl, rfl⟩

example : DotDot (str% "a/../*") ∧ ¬ DotDot (str% "a/./*") := by
  rw [← hasDotDot_iff, ← hasDotDot_iff]; decide
example : Pieces (str% "a,,b") [str% "a", [], str% "b"] := splitChar_pieces (str% "a,,b")
example : CheckedOut exWorld (str% "v2") false false (str% "start") [.git [str% "checkout", str% "v2"] (.exited true [] [] true)] (str% "v2") :=
  ⟨[], _, _, .inr ⟨rfl, rfl, rfl⟩, rfl, .inl ⟨rfl, _, rfl, ⟨[], [], true, rfl⟩, rfl⟩⟩
example : CheckoutFails exWorld (str% "v3") false false (str% "v1") [.git [str% "checkout", str% "v3"] (.exited false [] (str% "no such branch") true)] (str% "v1") :=
  .inr ⟨[], _, _, .inr ⟨rfl, rfl, rfl⟩, rfl, .inl ⟨rfl, _, rfl, (by rintro ⟨_, _, _, h⟩; cases h), rfl⟩⟩

end Swc
