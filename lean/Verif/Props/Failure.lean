/-
C100: a comparison that fails says which step failed, and why.
-/
import Verif.Spec.Failure
import Verif.Props.Git
import Verif.Props.Language
import Verif.Lemmas.Halts

namespace Swc

open Spec

variable {W : World}

/-! ### Texts in quotes -/

theorem digitChar_hex : ∀ d, d < 16 → hexDigits[d]? = some (Nat.digitChar d) ∧ hexDigits.idxOf (Nat.digitChar d) = d ∧ (Nat.digitChar d = '0' → d = 0) := by
  decide

theorem hexadecimal_digits (n : Nat) : Hexadecimal n (Nat.toDigits 16 n) := by
  induction n using Nat.strongRecOn with
  | ind n ih =>
    rw [Nat.toDigits_eq_if (by decide)]
    split
    · next h =>
      obtain ⟨h1, h2, h3⟩ := digitChar_hex n h
      refine ⟨fun c hc => ?_, by simp, fun e => ?_, ?_⟩
      · rw [List.mem_singleton.1 hc]; exact List.mem_of_getElem? h1
      · simp at e; rw [e]; rfl
      · simp [hexValue, h2]
    · next h =>
      have hlt : n / 16 < n := by omega
      obtain ⟨i1, i2, i3, i4⟩ := ih _ hlt
      obtain ⟨h1, h2, h3⟩ := digitChar_hex (n % 16) (by omega)
      refine ⟨fun c hc => ?_, by simp, fun e => ?_, ?_⟩
      · rcases List.mem_append.1 hc with hc | hc
        · exact i1 c hc
        · rw [List.mem_singleton.1 hc]; exact List.mem_of_getElem? h1
      · exfalso
        rw [List.head?_append_of_ne_nil _ i2] at e
        rw [i3 e] at i4
        have : n / 16 = 0 := i4.symm
        omega
      · unfold hexValue at i4 ⊢
        rw [List.foldl_append, i4]
        simp only [List.foldl_cons, List.foldl_nil, h2]
        omega

theorem letter_cases {c e : Char} (h : (c, e) ∈ escapeLetters) :
    (c = '\x00' ∧ e = '0') ∨ (c = '\t' ∧ e = 't') ∨ (c = '\r' ∧ e = 'r') ∨ (c = '\n' ∧ e = 'n') ∨ (c = '\\' ∧ e = '\\') ∨ (c = '"' ∧ e = '"') := by
  simpa [escapeLetters] using h

/-- C100: `{:?}` writes a text in quotes. -/
theorem C100_quoted (plain : Char → Bool) (s : Str) : Quoted plain s (debugStr plain s) := by
  refine ⟨s.flatMap (debugChar plain), ?_, rfl⟩
  induction s with
  | nil => exact .done
  | cons c s ih =>
    rw [List.flatMap_cons]
    by_cases h : ∃ e, (c, e) ∈ escapeLetters
    · obtain ⟨e, h⟩ := h
      have hd : debugChar plain c = ['\\', e] := by
        rcases letter_cases h with ⟨rfl, rfl⟩ | ⟨rfl, rfl⟩ | ⟨rfl, rfl⟩ | ⟨rfl, rfl⟩ | ⟨rfl, rfl⟩ | ⟨rfl, rfl⟩ <;> rfl
      rw [hd]
      exact .letter h ih
    · have hn : ∀ e, (c, e) ∉ escapeLetters := fun e he => h ⟨e, he⟩
      have hd : debugChar plain c = if plain c then [c] else str% "\\u{" ++ Nat.toDigits 16 c.toNat ++ str% "}" := by
        unfold debugChar
        rw [if_neg, if_neg, if_neg, if_neg, if_neg, if_neg]
        all_goals rintro rfl; exact h ⟨_, by simp [escapeLetters]; rfl⟩
      rw [hd]
      cases hp : plain c with
      | true => exact .plain hn hp ih
      | false =>
        rw [if_neg Bool.false_ne_true]
        have := QuotedBody.code hn hp (hexadecimal_digits c.toNat) ih
        simpa using this

theorem letters_unique {c c' e : Char} (h : (c, e) ∈ escapeLetters) (h' : (c', e) ∈ escapeLetters) : c = c' := by
  rcases letter_cases h with ⟨rfl, rfl⟩ | ⟨rfl, rfl⟩ | ⟨rfl, rfl⟩ | ⟨rfl, rfl⟩ | ⟨rfl, rfl⟩ | ⟨rfl, rfl⟩ <;>
    rcases letter_cases h' with ⟨rfl, h⟩ | ⟨rfl, h⟩ | ⟨rfl, h⟩ | ⟨rfl, h⟩ | ⟨rfl, h⟩ | ⟨rfl, h⟩ <;> first | rfl | exact absurd h (by decide)

theorem hex_split {h h' q q' : Str} (a : ∀ c ∈ h, c ∈ hexDigits) (a' : ∀ c ∈ h', c ∈ hexDigits) (e : h ++ '}' :: q = h' ++ '}' :: q') : h = h' ∧ q = q' := by
  induction h generalizing h' with
  | nil =>
    cases h' with
    | nil => simpa using e
    | cons x h' =>
      cases e
      exact absurd (a' '}' (by simp)) (by decide)
  | cons x h ih =>
    cases h' with
    | nil =>
      cases e
      exact absurd (a '}' (by simp)) (by decide)
    | cons y h' =>
      simp only [List.cons_append, List.cons.injEq] at e
      obtain ⟨rfl, e⟩ := e
      obtain ⟨rfl, rfl⟩ := ih (fun c hc => a c (.tail _ hc)) (fun c hc => a' c (.tail _ hc)) e
      exact ⟨rfl, rfl⟩

/-- C100: what is in quotes can be read back: two texts with the same quotation are the same. -/
theorem C100_read_back {plain : Char → Bool} {s s' q : Str} (h : Quoted plain s q) (h' : Quoted plain s' q) : s = s' := by
  obtain ⟨b, h, rfl⟩ := h
  obtain ⟨b', h', e⟩ := h'
  have e' : b = b' := by simpa using e
  clear e
  subst e'
  induction h generalizing s' with
  | done => cases h'; rfl
  | @letter c e s q hl _ ih =>
    cases h' with
    | letter hl' h' => rw [letters_unique hl hl', ih h']
    | plain hn _ _ => exact absurd (by simp [escapeLetters]) (hn '\\')
    | code _ _ _ _ =>
      have := letter_cases hl
      simp at this
  | @plain c s q hn hp _ ih =>
    cases h' with
    | letter hl' h' => exact absurd (by simp [escapeLetters]) (hn '\\')
    | plain _ _ h' => rw [ih h']
    | code _ _ _ _ => exact absurd (by simp [escapeLetters]) (hn '\\')
  | @code c h s q hn hp hx _ ih =>
    generalize hq : str% "\\u{" ++ h ++ '}' :: q = q' at h'
    cases h' with
    | done => cases hq
    | letter hl' h' =>
      simp only [List.cons_append, List.nil_append, List.cons.injEq] at hq
      obtain ⟨-, rfl, -⟩ := hq
      have := letter_cases hl'
      simp at this
    | plain hn' _ _ =>
      simp only [List.cons_append, List.nil_append, List.cons.injEq] at hq
      obtain ⟨rfl, -⟩ := hq
      exact absurd (by simp [escapeLetters]) (hn' '\\')
    | @code c' h2 s2 q2 hn' hp' hx' h' =>
      simp only [List.cons_append, List.nil_append, List.cons.injEq, true_and] at hq
      obtain ⟨rfl, rfl⟩ := hex_split hx.digits hx'.digits hq
      have : c = c' := by
        have := hx.value.symm.trans hx'.value
        exact Char.ext (UInt32.toNat_inj.1 this)
      rw [this, ih h']

theorem hexadecimal_unique {n : Nat} {h : Str} (hx : Hexadecimal n h) : h = Nat.toDigits 16 n := by
  induction h using List.reverseRecOn generalizing n with
  | nil => exact absurd rfl hx.some_
  | append_singleton h0 c ih =>
    have hc : hexDigits.idxOf c < 16 ∧ Nat.digitChar (hexDigits.idxOf c) = c := by
      have : ∀ c ∈ hexDigits, hexDigits.idxOf c < 16 ∧ Nat.digitChar (hexDigits.idxOf c) = c := by decide
      exact this c (hx.digits c (by simp))
    have hv : 16 * hexValue h0 + hexDigits.idxOf c = n := by
      have := hx.value
      rw [hexValue, List.foldl_append] at this
      exact this
    rw [Nat.toDigits_eq_if (by decide)]
    by_cases h0n : h0 = []
    · subst h0n
      have : hexDigits.idxOf c = n := by simpa [hexValue] using hv
      rw [if_pos (by omega), ← this, hc.2]
      rfl
    · have hd : n / 16 = hexValue h0 := by omega
      have hlead : h0.head? ≠ some '0' := by
        intro e
        have := hx.lead (by rw [List.head?_append_of_ne_nil _ h0n]; exact e)
        have hl := congrArg List.length this
        simp at hl
        exact h0n hl
      have hh : h0 = Nat.toDigits 16 (n / 16) :=
        ih ⟨fun c hc => hx.digits c (by simp [hc]), h0n, fun e => absurd e hlead, hd.symm⟩
      have hn : ¬ n < 16 := by
        intro hn
        have : n / 16 = 0 := by omega
        rw [this] at hh
        rw [hh] at hlead
        exact hlead rfl
      have hm : n % 16 = hexDigits.idxOf c := by omega
      rw [if_neg hn, ← hh, hm, hc.2]

theorem letters_unique' {c e e' : Char} (h : (c, e) ∈ escapeLetters) (h' : (c, e') ∈ escapeLetters) : e = e' := by
  rcases letter_cases h with ⟨rfl, rfl⟩ | ⟨rfl, rfl⟩ | ⟨rfl, rfl⟩ | ⟨rfl, rfl⟩ | ⟨rfl, rfl⟩ | ⟨rfl, rfl⟩ <;>
    rcases letter_cases h' with ⟨h, rfl⟩ | ⟨h, rfl⟩ | ⟨h, rfl⟩ | ⟨h, rfl⟩ | ⟨h, rfl⟩ | ⟨h, rfl⟩ <;> first | rfl | exact absurd h (by decide)

theorem quoted_unique {plain : Char → Bool} {s q q' : Str} (h : Quoted plain s q) (h' : Quoted plain s q') : q = q' := by
  obtain ⟨b, h, rfl⟩ := h
  obtain ⟨b', h', rfl⟩ := h'
  have : b = b' := by
    induction h generalizing b' with
    | done => cases h'; rfl
    | letter hl _ ih =>
      cases h' with
      | letter hl' h' => rw [letters_unique' hl hl', ih _ h']
      | plain hn _ _ => exact absurd hl (hn _)
      | code hn _ _ _ => exact absurd hl (hn _)
    | plain hn hp _ ih =>
      cases h' with
      | letter hl' _ => exact absurd hl' (hn _)
      | plain _ _ h' => rw [ih _ h']
      | code _ hp' _ _ => rw [hp] at hp'; cases hp'
    | code hn hp hx _ ih =>
      cases h' with
      | letter hl' _ => exact absurd hl' (hn _)
      | plain _ hp' _ => rw [hp] at hp'; cases hp'
      | code _ _ hx' h' => rw [hexadecimal_unique hx, hexadecimal_unique hx', ih _ h']
  rw [this]

/-! ### Steps -/

/-- The step ends with this error, in this state. -/
def ErrsTo {α : Type} (x : Act W α) (s : Run W) (m : Str) (s' : W.State) : Prop := ∃ log, x s = (.err m, ⟨s', log⟩)

theorem errsTo_bind {α β : Type} {x : Act W α} {f : α → Act W β} {s : Run W} {m : Str} {s' : W.State} :
    ErrsTo (x >>= f) s m s' ↔ ErrsTo x s m s' ∨ ∃ a s1, x s = (.ok a, s1) ∧ ErrsTo (f a) s1 m s' := by
  unfold ErrsTo
  rw [Act.bind_eq]
  generalize x s = r
  obtain ⟨r, s1⟩ := r
  cases r with
  | ok a =>
    constructor
    · exact fun h => .inr ⟨a, s1, rfl, h⟩
    · rintro (⟨l, h⟩ | ⟨a', s1', h1, h2⟩)
      · cases h
      · cases h1; exact h2
  | err e =>
    constructor
    · rintro ⟨l, h⟩; cases h; exact .inl ⟨l, rfl⟩
    · rintro (⟨l, h⟩ | ⟨a', s1', h1, h2⟩)
      · cases h; exact ⟨l, rfl⟩
      · cases h1
  | panic => simp
  | diverge => simp

theorem errsTo_lift {α : Type} {r : Res α} {s : Run W} {m : Str} {s' : W.State} : ErrsTo (Act.lift r) s m s' ↔ r = .err m ∧ s' = s.state := by
  unfold ErrsTo
  rw [Act.lift_run]
  constructor
  · rintro ⟨l, h⟩; cases h; exact ⟨rfl, rfl⟩
  · rintro ⟨rfl, rfl⟩; exact ⟨_, rfl⟩

theorem errsTo_pure {α : Type} {a : α} {s : Run W} {m : Str} {s' : W.State} : ¬ ErrsTo (pure a) s m s' := by
  rintro ⟨l, h⟩; cases h

theorem errsTo_mapErr {α : Type} {x : Act W α} {f : Str → Str} {s : Run W} {m : Str} {s' : W.State} :
    ErrsTo (x.mapErr f) s m s' ↔ ∃ m', ErrsTo x s m' s' ∧ m = f m' := by
  unfold ErrsTo
  simp only [Act.mapErr_err]
  constructor
  · rintro ⟨l, m', h, rfl⟩; exact ⟨m', ⟨l, h⟩, rfl⟩
  · rintro ⟨m', ⟨l, h⟩, rfl⟩; exact ⟨l, m', h, rfl⟩

theorem expect_err {what : Str} {out : GitOut} {m : Str} : expectSuccess what out = .err m ↔ ¬ Success out ∧ m = what ++ str% ": " ++ gitSays out := by
  unfold Success
  cases out with
  | spawnFailed e => simp [expectSuccess, gitSays, eq_comm]
  | exited ok o e u => cases ok <;> simp [expectSuccess, gitSays, eq_comm]

theorem errsTo_git {what : Str} {args : List Str} {s : Run W} {m : Str} {s' : W.State} :
    ErrsTo (runGit args >>= fun out => Act.lift (expectSuccess what out)) s m s' ↔ FailsWith W what s.state args s' m := by
  have e : (runGit args >>= fun out => Act.lift (expectSuccess what out)) s
      = (expectSuccess what (W.git s.state args).1, (⟨(W.git s.state args).2, s.log ++ [.git args (W.git s.state args).1]⟩ : Run W)) := rfl
  unfold ErrsTo FailsWith
  rw [e]
  constructor
  · rintro ⟨l, h⟩
    obtain ⟨h1, h2⟩ := Prod.mk.inj h
    obtain ⟨h3, h4⟩ := expect_err.1 h1
    exact ⟨_, Prod.ext rfl (congrArg Run.state h2), h3, h4⟩
  · rintro ⟨out, h1, h2, h3⟩
    rw [h1]
    exact ⟨_, Prod.ext (expect_err.2 ⟨h2, h3⟩) rfl⟩

/-- C100: how checking out a revision fails, and what is said about it. -/
theorem C100_checkout (refname : Str) (pull force : Bool) (s : Run W) (m : Str) (s' : W.State) :
    (∃ log, gitCheckout refname pull force s = (.err m, ⟨s', log⟩)) ↔ NotCheckedOut W refname pull force s.state s' m := by
  show ErrsTo _ _ _ _ ↔ _
  rw [gitCheckout_eq, errsTo_bind]
  unfold NotCheckedOut
  have hf : ErrsTo (if pull then gitPull refname else pure () : Act W Unit) s m s'
      ↔ pull = true ∧ FailsWith W (str% "Failed to fetch branch") s.state [str% "fetch", str% "origin", refname] s' m := by
    cases pull with
    | true => rw [if_pos rfl, gitPull, errsTo_git]; simp
    | false => rw [if_neg (by simp)]; simp [errsTo_pure]
  have ht : ∀ s0 : Run W, ErrsTo (if force then resetTail refname else (runGit [str% "checkout", refname] >>= fun out =>
        Act.lift (expectSuccess (str% "Failed to checkout branch") out))) s0 m s' ↔
      ((force = false ∧ FailsWith W (str% "Failed to checkout branch") s0.state [str% "checkout", refname] s' m) ∨
      (force = true ∧ ∃ L1 s1, Fails W s0.state [str% "reset", str% "--hard", str% "origin/" ++ refname] L1 s1 ∧
        FailsWith W (str% "Failed to reset branch") s1 [str% "reset", str% "--hard", refname] s' m)) := by
    intro s0
    cases force with
    | false => rw [if_neg (by simp), errsTo_git]; simp
    | true =>
      rw [if_pos rfl]
      rcases resetTail_cases refname s0 with ⟨s1, h1, h2⟩ | ⟨L, s1, h1, h2⟩
      · constructor
        · rintro ⟨l, h⟩; rw [h2] at h; cases h
        · rintro (⟨h, -⟩ | ⟨-, L1, s2, h, -⟩)
          · cases h
          · exact (not_both h1 h).elim
      · have : ErrsTo (resetTail refname) s0 m s' ↔ FailsWith W (str% "Failed to reset branch") s1 [str% "reset", str% "--hard", refname] s' m := by
          unfold ErrsTo
          rw [h2]
          exact errsTo_git (s := ⟨s1, s0.log ++ L⟩)
        rw [this]
        constructor
        · exact fun h => .inr ⟨rfl, L, s1, h1, h⟩
        · rintro (⟨h, -⟩ | ⟨-, L1, s2, h, h'⟩)
          · cases h
          · obtain ⟨rfl, rfl⟩ := fails_det h1 h
            exact h'
  rw [hf]
  refine or_congr Iff.rfl ⟨?_, ?_⟩
  · rintro ⟨⟨⟩, s1, h1, h2⟩
    obtain ⟨L, f1, -⟩ := (fetch_ok _ _ _ _).1 h1
    exact ⟨L, s1.state, f1, (ht s1).1 h2⟩
  · rintro ⟨L, s0, h1, h2⟩
    exact ⟨(), ⟨s0, s.log ++ L⟩, (fetch_ok _ _ _ _).2 ⟨L, h1, rfl⟩, (ht ⟨s0, s.log ++ L⟩).2 h2⟩

theorem collectPaths_err (l : List (Except Str Path)) (m : Str) :
    collectPaths l = .err m ↔ ∃ (good : List Path) (e : Str) (rest : List (Except Str Path)), l = good.map .ok ++ .error e :: rest ∧ m = str% "Path pattern error: " ++ e := by
  induction l with
  | nil => simp [collectPaths]
  | cons a l ih =>
    cases a with
    | error e =>
      simp only [collectPaths, Res.err.injEq]
      constructor
      · rintro rfl; exact ⟨[], e, l, rfl, rfl⟩
      · rintro ⟨good, e', rest, h, rfl⟩
        cases good with
        | nil => cases h; rfl
        | cons g good => cases h
    | ok p =>
      rw [collectPaths]
      have : (do Res.ok (p :: (← collectPaths l)) : Res (List Path)) = .err m ↔ collectPaths l = .err m := by
        cases collectPaths l <;> simp
      rw [this, ih]
      constructor
      · rintro ⟨good, e, rest, rfl, rfl⟩; exact ⟨p :: good, e, rest, rfl, rfl⟩
      · rintro ⟨good, e, rest, h, rfl⟩
        cases good with
        | nil => cases h
        | cons g good => cases h; exact ⟨good, e, rest, rfl, rfl⟩

theorem errsTo_glob {pattern : Str} {s : Run W} {m : Str} {s' : W.State} : ErrsTo (runGlob pattern) s m s' ↔ s' = s.state ∧ PieceFails W s.state pattern m := by
  unfold ErrsTo PieceFails runGlob
  cases W.glob s.state pattern with
  | error e =>
    simp only [Prod.mk.injEq, Res.err.injEq, Run.mk.injEq, Except.error.injEq, reduceCtorEq, false_and, exists_false, or_false]
    constructor
    · rintro ⟨l, rfl, rfl, -⟩; exact ⟨rfl, e, rfl, rfl⟩
    · rintro ⟨rfl, e', rfl, rfl⟩; exact ⟨_, rfl, rfl, rfl⟩
  | ok l =>
    simp only [Prod.mk.injEq, collectPaths_err, Run.mk.injEq, Except.ok.injEq, reduceCtorEq, false_and, exists_false, false_or]
    constructor
    · rintro ⟨l', h, rfl, -⟩; exact ⟨rfl, h⟩
    · rintro ⟨rfl, h⟩; exact ⟨_, h, rfl, rfl⟩

theorem errsTo_loop (base : Path) (maxFiles : Nat) (ps : List Str) (acc : List Path) (hacc : acc.length ≤ maxFiles) (s : Run W) (m : Str) (s' : W.State) :
    ErrsTo (listLoop base maxFiles ps acc) s m s' ↔ s' = s.state ∧ ∃ before piece after ms, ps = before ++ piece :: after ∧ Found W s.state base before ms ∧
      (acc ++ ms.flatten).length ≤ maxFiles ∧
      (PieceFails W s.state (base.display ++ str% "/" ++ piece) m ∨
        ∃ x, Found W s.state base [piece] [x] ∧ maxFiles < (acc ++ (ms.flatten ++ x)).length ∧
          m = str% "Found too many files. Found: " ++ natToStr (acc ++ (ms.flatten ++ x)).length ++ str% ", Max: " ++ natToStr maxFiles) := by
  induction ps generalizing acc s with
  | nil =>
    rw [listLoop]
    constructor
    · exact fun h => (errsTo_pure h).elim
    · rintro ⟨-, before, piece, after, ms, h, -⟩
      simp at h
  | cons p ps ih =>
    have hfound : ∀ all : List Path, GlobMatches W s.state (base.display ++ str% "/" ++ p) all →
        Found W s.state base [p] [all.filter fun f => !f.endsWithModRs] := by
      intro all hg
      exact .cons ⟨all, hg, by simp only [endsWithModRs_eq]⟩ .nil
    have hdet : ∀ x y, Found W s.state base [p] [x] → Found W s.state base [p] [y] → x = y := by
      intro x y hx hy
      cases hx with
      | cons hx _ =>
        cases hy with
        | cons hy _ =>
          obtain ⟨a, h1, rfl⟩ := hx
          obtain ⟨c, h2, rfl⟩ := hy
          rw [GlobMatches] at h1 h2
          rw [h1] at h2
          have h2 := Except.ok.inj h2
          rw [List.map_injective_iff.2 (fun _ _ h => Except.ok.inj h) h2]
    rw [listLoop, errsTo_bind, errsTo_glob]
    constructor
    · rintro (⟨rfl, h⟩ | ⟨all, s1, h1, h2⟩)
      · exact ⟨rfl, [], p, ps, [], rfl, .nil, by simpa using hacc, .inl h⟩
      obtain ⟨hg, rfl⟩ := (runGlob_ok _ _ _ _).1 h1
      dsimp only at h2
      split at h2
      · next hlt =>
        obtain ⟨h3, rfl⟩ := errsTo_lift.1 h2
        cases h3
        exact ⟨rfl, [], p, ps, [], rfl, .nil, by simpa using hacc, .inr ⟨_, hfound all hg, by simpa using hlt, by simp⟩⟩
      · next hle =>
        obtain ⟨rfl, before, piece, after, ms, rfl, f1, f2, f3⟩ := (ih _ (by omega) _).1 h2
        refine ⟨rfl, p :: before, piece, after, (all.filter fun f => !f.endsWithModRs) :: ms, rfl, .cons ⟨all, hg, by simp only [endsWithModRs_eq]⟩ f1, ?_, ?_⟩
        · simpa [List.append_assoc] using f2
        · simpa [List.append_assoc] using f3
    · rintro ⟨rfl, before, piece, after, ms, h, f1, f2, f3⟩
      cases before with
      | nil =>
        cases h
        cases f1
        rcases f3 with f3 | ⟨x, f3, f4, f5⟩
        · exact .inl ⟨rfl, f3⟩
        · right
          cases f3 with
          | cons hx _ =>
            obtain ⟨all, hg, hm⟩ := hx
            refine ⟨all, _, (runGlob_ok _ _ _ _).2 ⟨hg, rfl⟩, ?_⟩
            have hm' : (all.filter fun f => !f.endsWithModRs) = x := by rw [hm]; simp only [endsWithModRs_eq]
            dsimp only
            rw [hm', if_pos (by simpa using f4)]
            exact errsTo_lift.2 ⟨by rw [f5]; simp, rfl⟩
      | cons b before =>
        simp only [List.cons_append, List.cons.injEq] at h
        obtain ⟨rfl, rfl⟩ := h
        cases f1 with
        | @cons _ y _ ms hx f1 =>
          obtain ⟨all, hg, hm⟩ := hx
          right
          refine ⟨all, _, (runGlob_ok _ _ _ _).2 ⟨hg, rfl⟩, ?_⟩
          have hm' : (all.filter fun f => !f.endsWithModRs) = y := by rw [hm]; simp only [endsWithModRs_eq]
          dsimp only
          have hle : (acc ++ y).length ≤ maxFiles := by
            simp only [List.flatten_cons, List.length_append] at f2 ⊢
            omega
          rw [hm', if_neg (by omega)]
          refine (ih _ hle _).2 ⟨rfl, before, piece, after, ms, rfl, f1, ?_, ?_⟩
          · simpa [List.append_assoc] using f2
          · simpa [List.append_assoc] using f3

/-- C100: how listing files fails, and what is said about it. -/
theorem C100_listing (base : Path) (pattern : Str) (maxFiles : Nat) (s : Run W) (m : Str) (s' : W.State) :
    (∃ log, listFiles base pattern maxFiles s = (.err m, ⟨s', log⟩)) ↔ s' = s.state ∧ NotListed W s.state base pattern maxFiles m := by
  show ErrsTo _ _ _ _ ↔ _
  unfold listFiles NotListed
  rw [errsTo_bind, errsTo_loop _ _ _ _ (Nat.zero_le _)]
  constructor
  · rintro (⟨rfl, before, piece, after, ms, h, h'⟩ | ⟨a, s1, -, h⟩)
    · exact ⟨rfl, before, piece, after, ms, h ▸ splitChar_pieces pattern, h'⟩
    · exact (errsTo_pure h).elim
  · rintro ⟨rfl, before, piece, after, ms, h, h'⟩
    exact .inl ⟨rfl, before, piece, after, ms, pieces_unique (splitChar_pieces pattern) h, h'⟩

/-! ### Files -/

theorem firstOk_err {α : Type} {f : Item → Res α} {msg m : Str} {items : List Item} (h : firstOk f msg items = .err m) : m = msg ∧ ∀ i ∈ items, ∃ e, f i = .err e := by
  induction items with
  | nil => cases h; exact ⟨rfl, by simp⟩
  | cons i l ih =>
    rw [firstOk] at h
    cases hf : f i with
    | err e =>
      rw [hf] at h
      obtain ⟨h1, h2⟩ := ih h
      refine ⟨h1, fun j hj => ?_⟩
      rcases List.mem_cons.1 hj with rfl | hj
      · exact ⟨e, hf⟩
      · exact h2 j hj
    | ok a => rw [hf] at h; cases h
    | panic => rw [hf] at h; cases h
    | diverge => rw [hf] at h; cases h

theorem parseContent_err {syn : SynParser} {cc : CharClass} {name content m : Str} : parseContent syn cc name content = .err m ↔
    (∃ e q, syn content = .error e ∧ Quoted cc.plain content q ∧ m = str% "syn refused to parse content: " ++ q ++ str% ": " ++ e) ∨
    ∃ items, syn content = .ok items ∧ (∀ i ∈ items, Passed cc i) ∧ m = str% "Could not find a weight implementation in the passed file" := by
  cases hs : syn content with
  | error e =>
    simp only [parseContent, hs, Res.err.injEq]
    constructor
    · intro h; exact .inl ⟨e, _, rfl, C100_quoted _ _, h.symm⟩
    · rintro (⟨e', q, h1, h2, rfl⟩ | ⟨_, h, -⟩)
      · cases h1; rw [quoted_unique h2 (C100_quoted _ _)]
      · cases h
  | ok items =>
    simp only [parseContent, hs]
    constructor
    · intro h
      obtain ⟨rfl, h2⟩ := firstOk_err h
      exact .inr ⟨items, rfl, fun i hi => (passed_iff cc name i).2 (h2 i hi), rfl⟩
    · rintro (⟨e', q, h1, -⟩ | ⟨items', h1, h2, rfl⟩)
      · cases h1
      · cases h1
        obtain ⟨m, hm⟩ := (C108_file_refused syn cc name content).2 (.inr ⟨items, hs, h2⟩)
        simp only [parseContent, hs] at hm
        rw [hm, (firstOk_err hm).1]

theorem content_notParsed {env : Env} {fs : Fs} {file : Path} {content : Str} (hf : fs file = .ok content) (name m : Str) :
    withFile file (parseContent env.syn env.cc name content) = .err m ↔ NotParsed env fs file m := by
  unfold NotParsed
  simp only [hf, reduceCtorEq, false_and, exists_false, Except.ok.injEq, false_or]
  have key := fun m => parseContent_err (syn := env.syn) (cc := env.cc) (name := name) (content := content) (m := m)
  generalize parseContent env.syn env.cc name content = r at key
  constructor
  · intro h
    cases r with
    | err e =>
      cases h
      rcases (key e).1 rfl with ⟨e', q, h1, h2, rfl⟩ | ⟨items, h1, h2, rfl⟩
      · exact .inl ⟨content, e', q, rfl, h1, h2, by simp [List.append_assoc]⟩
      · exact .inr ⟨content, items, rfl, h1, h2, by simp [List.append_assoc]⟩
    | ok a => cases h
    | panic => cases h
    | diverge => cases h
  · rintro (⟨_, e, q, rfl, h1, h2, rfl⟩ | ⟨_, items, rfl, h1, h2, rfl⟩)
    · rw [(key _).2 (.inl ⟨e, q, h1, h2, rfl⟩)]; simp [withFile, List.append_assoc]
    · rw [(key _).2 (.inr ⟨items, h1, h2, rfl⟩)]; simp [withFile, List.append_assoc]

/-- C100: what is said about a file that cannot be read or parsed, and of which files it is said. -/
theorem C100_file {env : Env} {fs : Fs} {repo file : Path} {m : Str} : parseFileInRepo env fs repo file = .err m ↔ NotParsed env fs file m := by
  unfold parseFileInRepo readFile
  cases hf : fs file with
  | error e => simp [NotParsed, hf, eq_comm]
  | ok content =>
    rw [Res.bind_ok, PathStripping.strip, Res.bind_ok]
    exact content_notParsed hf _ m

theorem parseAll_err {f : Path → Res (List ChromaticExtrinsic)} {l : List Path} {m : Str} :
    parseAll f l = .err m ↔ ∃ good file rest, l = good ++ file :: rest ∧ (∀ g ∈ good, ∃ x, f g = .ok x) ∧ f file = .err m := by
  induction l with
  | nil => simp [parseAll]
  | cons p l ih =>
    rw [parseAll]
    constructor
    · intro h
      cases hp : f p with
      | ok a =>
        rw [hp] at h
        cases hl : parseAll f l with
        | err e =>
          rw [hl] at h
          cases h
          obtain ⟨good, file, rest, rfl, h2, h3⟩ := ih.1 hl
          refine ⟨p :: good, file, rest, rfl, fun g hg => ?_, h3⟩
          rcases List.mem_cons.1 hg with rfl | hg
          · exact ⟨a, hp⟩
          · exact h2 g hg
        | ok _ => rw [hl] at h; cases h
        | panic => rw [hl] at h; cases h
        | diverge => rw [hl] at h; cases h
      | err e => rw [hp] at h; cases h; exact ⟨[], p, l, rfl, by simp, hp⟩
      | panic => rw [hp] at h; cases h
      | diverge => rw [hp] at h; cases h
    · rintro ⟨good, file, rest, h1, h2, h3⟩
      cases good with
      | nil => cases h1; rw [h3]; rfl
      | cons g good =>
        cases h1
        obtain ⟨x, hx⟩ := h2 p (by simp)
        rw [hx, Res.bind_ok, ih.2 ⟨good, file, rest, rfl, fun y hy => h2 y (.tail _ hy), h3⟩]
        rfl

theorem parseAll_panic {f : Path → Res (List ChromaticExtrinsic)} {good : List Path} {file : Path} {rest : List Path} (hg : ∀ g ∈ good, ∃ x, f g = .ok x)
    (hf : f file = .panic) : parseAll f (good ++ file :: rest) = .panic := by
  induction good with
  | nil => rw [List.nil_append, parseAll, hf]; rfl
  | cons g good ih =>
    obtain ⟨x, hx⟩ := hg g (by simp)
    rw [List.cons_append, parseAll, hx, Res.bind_ok, ih fun y hy => hg y (.tail _ hy)]
    rfl

theorem tryParseAll_err {f : Path → Res (List ChromaticExtrinsic)} {l : List Path} {m : Str} : tryParseAll f l ≠ .err m := by
  induction l with
  | nil => exact nofun
  | cons p l ih =>
    intro h
    rw [tryParseAll] at h
    cases hp : f p with
    | ok a =>
      rw [hp] at h
      cases hl : tryParseAll f l with
      | err e => rw [hl] at h; cases h; exact ih hl
      | ok _ => rw [hl] at h; cases h
      | panic => rw [hl] at h; cases h
      | diverge => rw [hl] at h; cases h
    | err e =>
      rw [hp] at h
      cases hl : tryParseAll f l with
      | err e => rw [hl] at h; cases h; exact ih hl
      | ok _ => rw [hl] at h; cases h
      | panic => rw [hl] at h; cases h
      | diverge => rw [hl] at h; cases h
    | panic => rw [hp] at h; cases h
    | diverge => rw [hp] at h; cases h

theorem understood_iff {env : Env} {fs : Fs} {file : Path} (repo : Path) :
    (∃ x, parseFileInRepo env fs repo file = .ok x) ↔ ∃ n x, UnderstoodFile env fs file n x := by
  constructor
  · rintro ⟨x, h⟩; exact ⟨_, x, (parseFileInRepo_ok _ _ _ _ _).1 h⟩
  · rintro ⟨n, x, h⟩
    obtain ⟨y, hy⟩ := understood_name h (Path.display ((Path.stripPrefix repo file).getD file))
    exact ⟨y, (parseFileInRepo_ok _ _ _ _ _).2 hy⟩

theorem errsTo_parse {env : Env} {repo : Path} {ignore : Bool} {files : List Path} {s : Run W} {m : Str} {s' : W.State} :
    ErrsTo (parseListed env repo ignore files) s m s' ↔ s' = s.state ∧ ignore = false ∧ FirstBad env (W.fs s.state) files m := by
  unfold ErrsTo parseListed FirstBad
  cases ignore with
  | true =>
    constructor
    · rintro ⟨l, h⟩; exact absurd (Prod.mk.inj h).1 tryParseAll_err
    · rintro ⟨-, h, -⟩; cases h
  | false =>
    have key : parseFilesInRepo env (W.fs s.state) repo files = .err m ↔ _ := parseAll_err
    simp only [understood_iff, C100_file] at key
    rw [← key]
    constructor
    · rintro ⟨l, h⟩
      obtain ⟨h1, h2⟩ := Prod.mk.inj h
      exact ⟨(congrArg Run.state h2).symm, rfl, h1⟩
    · rintro ⟨rfl, -, h⟩
      exact ⟨_, Prod.ext h rfl⟩

theorem fatalFiles_iff {env : Env} {fs : Fs} {repo : Path} {ignore : Bool} {files : List Path} :
    FatalFiles env fs ignore files ↔ (if ignore then tryParseFilesInRepo env fs repo files else parseFilesInRepo env fs repo files) = .panic := by
  unfold FatalFiles
  cases ignore with
  | true =>
    rw [if_pos rfl, C108_lenient]
    constructor
    · rintro ⟨a, f, c, rfl, h, -⟩; exact ⟨f, by simp, h⟩
    · rintro ⟨f, hf, h⟩
      obtain ⟨a, c, rfl⟩ := List.append_of_mem hf
      exact ⟨a, f, c, rfl, h, fun h => nomatch h⟩
  | false =>
    rw [if_neg (by decide), C108_strict]
    simp

/-! ### Comparing -/

theorem diffOne_no_err {b : Build} {ho : HashOrder} {olds news : List SimpleExtrinsic} {params : CompareParams} {p e : Str} {m : Str} :
    diffOne b ho olds news params p e ≠ .err m := by
  unfold diffOne
  dsimp only
  cases hc : compareExtrinsics b ho (findExtrinsic olds p e) (findExtrinsic news p e) params with
  | ok c =>
    dsimp only
    split
    · exact nofun
    · rename_i x hx
      cases hs : sanityCheckTerm x.term with
      | ok => exact nofun
      | err m => exact nofun
      | panic => exact nofun
      | diverge => exact nofun
  | err m => exact nofun
  | panic => exact nofun
  | diverge => exact nofun

theorem mapM_no_err {α β : Type} {f : α → Res β} (hf : ∀ a m, f a ≠ .err m) (l : List α) (m : Str) : l.mapM f ≠ .err m := by
  induction l with
  | nil => exact nofun
  | cons a l ih =>
    rw [List.mapM_cons]
    intro h
    cases ha : f a with
    | ok x =>
      rw [ha, Res.bind_ok] at h
      cases hl : l.mapM f with
      | err e => rw [hl] at h; cases h; exact ih hl
      | ok _ => rw [hl] at h; cases h
      | panic => rw [hl] at h; cases h
      | diverge => rw [hl] at h; cases h
    | err e => exact hf a e ha
    | panic => rw [ha] at h; cases h
    | diverge => rw [ha] at h; cases h

theorem compileOpt_err {rx : RegexEngine} {o : Option Str} {m : Str} : rx.compileOpt o = .err m ↔ ∃ q, o = some q ∧ rx.compile q = none ∧ m = rx.errMsg q := by
  cases o with
  | none => simp [RegexEngine.compileOpt]
  | some q => cases h : rx.compile q <;> simp [RegexEngine.compileOpt, h, eq_comm]

theorem compileOpt_calm (rx : RegexEngine) (o : Option Str) : rx.compileOpt o ≠ .panic ∧ rx.compileOpt o ≠ .diverge := by
  cases o with
  | none => simp [RegexEngine.compileOpt]
  | some q => cases h : rx.compile q <;> simp [RegexEngine.compileOpt, h]

/-- C100: the comparison itself fails only at a filter. -/
theorem C100_filter (b : Build) (ho : HashOrder) (rx : RegexEngine) (olds news : List ChromaticExtrinsic) (params : CompareParams) (filter : FilterParams) (m : Str) :
    compareFiles b ho rx olds news params filter = .err m ↔ BadFilter rx filter m := by
  rw [compareFiles_eq]
  unfold BadFilter
  cases he : rx.compileOpt filter.extrinsic with
  | err e =>
    obtain ⟨q, h1, h2, rfl⟩ := compileOpt_err.1 he
    simp only [Res.bind_err, Res.err.injEq]
    constructor
    · rintro rfl; exact ⟨q, h2, rfl, .inl h1⟩
    · rintro ⟨q', h3, rfl, h4 | ⟨-, h4⟩⟩
      · rw [h1] at h4; cases h4; rfl
      · exact absurd h2 (h4 q h1)
  | ok er =>
    rw [Res.bind_ok]
    have hne : ∀ q, filter.extrinsic = some q → rx.compile q ≠ none := fun q h1 h2 => by
      rw [compileOpt_err.2 ⟨q, h1, h2, rfl⟩] at he; cases he
    cases hp : rx.compileOpt filter.pallet with
    | err e =>
      obtain ⟨q, h1, h2, rfl⟩ := compileOpt_err.1 hp
      simp only [Res.bind_err, Res.err.injEq]
      constructor
      · rintro rfl; exact ⟨q, h2, rfl, .inr ⟨h1, hne⟩⟩
      · rintro ⟨q', h3, rfl, h4 | ⟨h4, -⟩⟩
        · exact absurd h3 (hne q' h4)
        · rw [h1] at h4; cases h4; rfl
    | ok pr =>
      rw [Res.bind_ok]
      constructor
      · intro h
        refine absurd h (mapM_no_err (fun p m h => ?_) _ _)
        unfold entry at h
        cases hd : diffOne b ho (olds.map (inDim params.unit)) (news.map (inDim params.unit)) params p.1 p.2 with
        | err e => exact diffOne_no_err hd
        | ok _ => rw [hd] at h; cases h
        | panic => rw [hd] at h; cases h
        | diverge => rw [hd] at h; cases h
      · rintro ⟨q', h3, rfl, h4 | ⟨h4, -⟩⟩
        · exact absurd h3 (hne q' h4)
        · rw [compileOpt_err.2 ⟨q', h4, h3, rfl⟩] at hp; cases hp
    | panic => exact absurd hp (compileOpt_calm rx _).1
    | diverge => exact absurd hp (compileOpt_calm rx _).2
  | panic => exact absurd he (compileOpt_calm rx _).1
  | diverge => exact absurd he (compileOpt_calm rx _).2

/-- The part of the comparison that uses one revision. -/
def useRev (env : Env) (repo : Path) (rev : Str) (params : CompareParams) (pattern : Str) (maxFiles : Nat) : Act W (List ChromaticExtrinsic) := do
  (gitCheckout rev params.shouldPull params.gitForce).mapErr (debugStr env.cc.plain)
  let paths ← listFiles repo pattern maxFiles
  parseListed env repo params.ignoreErrors paths

theorem act_assoc {α β γ : Type} (x : Act W α) (f : α → Act W β) (g : β → Act W γ) : (x >>= f) >>= g = x >>= fun a => f a >>= g := by
  funext s
  simp only [Act.bind_eq]
  generalize x s = r
  obtain ⟨r, s1⟩ := r
  cases r <;> rfl

theorem compareCommits_revs (b : Build) (ho : HashOrder) (rx : RegexEngine) (env : Env) (repo : Path) (old new : Str) (params : CompareParams)
    (filter : FilterParams) (pattern : Str) (maxFiles : Nat) : (compareCommits b ho rx env repo old new params filter pattern maxFiles : Act W _) =
      if hasDotDot pattern then Act.lift (.err (str% "Path pattern cannot contain '..'"))
      else useRev env repo old params pattern maxFiles >>= fun olds => useRev env repo new params pattern maxFiles >>= fun news =>
        Act.lift (compareFiles b ho rx olds news params filter) := by
  unfold compareCommits useRev
  simp only [act_assoc]

theorem parseListed_ok {env : Env} {repo : Path} {ignore : Bool} {files : List Path} {s s' : Run W} {exts : List ChromaticExtrinsic} :
    parseListed env repo ignore files s = (.ok exts, s') ↔ ParsedAs W env repo ignore s.state files exts ∧ s' = ⟨s.state, s.log ++ [.parse files]⟩ := by
  rw [parsedAs_iff]
  unfold parseListed
  cases ignore <;> simp [eq_comm]

theorem useRev_ok {env : Env} {repo : Path} {rev : Str} {params : CompareParams} {pattern : Str} {maxFiles : Nat} {s : Run W} {s' : W.State} :
    (∃ exts log, useRev env repo rev params pattern maxFiles s = (.ok exts, ⟨s', log⟩)) ↔ Usable W env repo rev params pattern maxFiles s.state s' := by
  unfold useRev Usable
  constructor
  · rintro ⟨exts, log, h⟩
    obtain ⟨⟨⟩, s1, h1, h⟩ := Act.bind_ok.1 h
    obtain ⟨files, s2, h2, h⟩ := Act.bind_ok.1 h
    obtain ⟨L, h3, -⟩ := (C42_checkout_ok _ _ _ _ _).1 (Act.mapErr_ok.1 h1)
    obtain ⟨h4, ps, -, rfl⟩ := (C38_listed _ _ _ _ _ _).1 h2
    obtain ⟨h5, h6⟩ := parseListed_ok.1 h
    cases h6
    exact ⟨L, files, exts, h3, h4, h5⟩
  · rintro ⟨L, files, exts, h1, h2, h3⟩
    refine ⟨exts, _, Act.bind_ok.2 ⟨(), ⟨s', s.log ++ L⟩, Act.mapErr_ok.2 ((C42_checkout_ok _ _ _ _ _).2 ⟨L, h1, rfl⟩), Act.bind_ok.2 ⟨files, _,
      (C38_listed _ _ _ _ _ _).2 ⟨h2, _, splitChar_pieces pattern, rfl⟩, parseListed_ok.2 ⟨h3, rfl⟩⟩⟩⟩

theorem useRev_err {env : Env} {repo : Path} {rev : Str} {params : CompareParams} {pattern : Str} {maxFiles : Nat} {s : Run W} {s' : W.State} {m : Str} :
    ErrsTo (useRev env repo rev params pattern maxFiles) s m s' ↔ Unusable W env repo rev params pattern maxFiles s.state s' m := by
  unfold useRev
  constructor
  · intro h
    rcases errsTo_bind.1 h with h | ⟨⟨⟩, s1, h1, h⟩
    · obtain ⟨m', h', rfl⟩ := errsTo_mapErr.1 h
      exact .inl ⟨m', (C100_checkout _ _ _ _ _ _).1 h', C100_quoted _ _⟩
    obtain ⟨L, h3, -⟩ := (C42_checkout_ok _ _ _ _ _).1 (Act.mapErr_ok.1 h1)
    rcases errsTo_bind.1 h with h | ⟨files, s2, h2, h⟩
    · obtain ⟨rfl, h'⟩ := (C100_listing _ _ _ _ _ _).1 h
      exact .inr ⟨L, h3, .inl h'⟩
    obtain ⟨h4, ps, -, rfl⟩ := (C38_listed _ _ _ _ _ _).1 h2
    obtain ⟨rfl, h5, h6⟩ := errsTo_parse.1 h
    exact .inr ⟨L, h3, .inr ⟨files, h4, h5, h6⟩⟩
  · rintro (⟨m', h1, h2⟩ | ⟨L, h1, h⟩)
    · exact errsTo_bind.2 (.inl (errsTo_mapErr.2 ⟨m', (C100_checkout _ _ _ _ _ _).2 h1, quoted_unique h2 (C100_quoted _ _)⟩))
    have h1 : ((gitCheckout rev params.shouldPull params.gitForce).mapErr (debugStr env.cc.plain) : Act W Unit) s = (.ok (), ⟨s', s.log ++ L⟩) :=
      Act.mapErr_ok.2 ((C42_checkout_ok _ _ _ _ _).2 ⟨L, h1, rfl⟩)
    rcases h with h | ⟨files, h2, h3, h4⟩
    · exact errsTo_bind.2 (.inr ⟨(), _, h1, errsTo_bind.2 (.inl ((C100_listing _ _ _ ⟨s', s.log ++ L⟩ _ _).2 ⟨rfl, h⟩))⟩)
    · have h2 := (C38_listed repo pattern maxFiles ⟨s', s.log ++ L⟩ _ files).2 ⟨h2, _, splitChar_pieces pattern, rfl⟩
      exact errsTo_bind.2 (.inr ⟨(), _, h1, errsTo_bind.2 (.inr ⟨files, _, h2, errsTo_parse.2 ⟨rfl, h3, h4⟩⟩)⟩)

/-- The action crashes, in this state. -/
def CrashesIn {α : Type} (x : Act W α) (s : Run W) (s' : W.State) : Prop := ∃ l, x s = (.panic, ⟨s', l⟩)

theorem crashesIn_bind {α β : Type} {x : Act W α} {f : α → Act W β} {s : Run W} {s' : W.State} : CrashesIn (x >>= f) s s' ↔
    CrashesIn x s s' ∨ ∃ a s1, x s = (.ok a, s1) ∧ CrashesIn (f a) s1 s' := by
  unfold CrashesIn
  rw [Act.bind_eq]
  generalize x s = r
  obtain ⟨r, s1⟩ := r
  cases r <;> simp

theorem checkout_not_crash {rev : Str} {pull force : Bool} {f : Str → Str} {s : Run W} {s' : W.State} :
    ¬ CrashesIn ((gitCheckout rev pull force).mapErr f : Act W Unit) s s' := by
  rintro ⟨l, h⟩
  have h' : (((gitCheckout rev pull force).mapErr f : Act W Unit) s).1 = .panic := by rw [h]
  unfold Act.mapErr at h'
  rcases C42_checkout_no_panic rev pull force s with ⟨a, h1⟩ | ⟨m, h1⟩ <;> simp [h1, Res.mapErr] at h'

theorem list_not_panic {base : Path} {pattern : Str} {maxFiles : Nat} {s s' : Run W} : listFiles base pattern maxFiles s ≠ (.panic, s') := by
  intro h
  by_cases hl : ∃ files, Listed W s.state base pattern maxFiles files
  · obtain ⟨files, hl⟩ := hl
    rw [(C38_listed _ _ _ s _ files).2 ⟨hl, _, splitChar_pieces pattern, rfl⟩] at h
    cases h
  · obtain ⟨m, s1, h'⟩ := C38_else_error base pattern maxFiles s fun files hf => hl ⟨files, hf⟩
    rw [h'] at h
    cases h

theorem useRev_crash {env : Env} {repo : Path} {rev : Str} {params : CompareParams} {pattern : Str} {maxFiles : Nat} {s : Run W} {s' : W.State} :
    CrashesIn (useRev env repo rev params pattern maxFiles) s s' ↔ FatalRevision W env repo rev params pattern maxFiles s.state s' := by
  unfold useRev FatalRevision
  have key : ∀ (s : Run W) files, CrashesIn (parseListed env repo params.ignoreErrors files) s s' ↔ s' = s.state ∧ FatalFiles env (W.fs s.state) params.ignoreErrors files := by
    intro s files
    rw [fatalFiles_iff (repo := repo)]
    unfold CrashesIn parseListed
    constructor
    · rintro ⟨l, h⟩
      obtain ⟨h1, h2⟩ := Prod.mk.inj h
      exact ⟨(congrArg Run.state h2).symm, h1⟩
    · rintro ⟨rfl, h⟩
      exact ⟨_, Prod.ext h rfl⟩
  constructor
  · intro h
    rcases crashesIn_bind.1 h with h | ⟨⟨⟩, s1, h1, h⟩
    · exact absurd h checkout_not_crash
    obtain ⟨L, h3, -⟩ := (C42_checkout_ok _ _ _ _ _).1 (Act.mapErr_ok.1 h1)
    rcases crashesIn_bind.1 h with h | ⟨files, s2, h2, h⟩
    · obtain ⟨l, h⟩ := h
      exact absurd h list_not_panic
    obtain ⟨h4, ps, -, rfl⟩ := (C38_listed _ _ _ _ _ _).1 h2
    obtain ⟨rfl, h5⟩ := (key _ _).1 h
    exact ⟨L, files, h3, h4, h5⟩
  · rintro ⟨L, files, h1, h2, h3⟩
    have h1 : ((gitCheckout rev params.shouldPull params.gitForce).mapErr (debugStr env.cc.plain) : Act W Unit) s = (.ok (), ⟨s', s.log ++ L⟩) :=
      Act.mapErr_ok.2 ((C42_checkout_ok _ _ _ _ _).2 ⟨L, h1, rfl⟩)
    have h2 := (C38_listed repo pattern maxFiles ⟨s', s.log ++ L⟩ _ files).2 ⟨h2, _, splitChar_pieces pattern, rfl⟩
    exact crashesIn_bind.2 (.inr ⟨(), _, h1, crashesIn_bind.2 (.inr ⟨files, _, h2, (key _ _).2 ⟨rfl, h3⟩⟩)⟩)

/-- C100: if a comparison fails, the text says which step failed, and why: it is the first thing that goes wrong. -/
theorem C100_why {b : Build} {ho : HashOrder} {rx : RegexEngine} {env : Env} {repo : Path} {old new : Str} {params : CompareParams}
    {filter : FilterParams} {pattern : Str} {maxFiles : Nat} {s s' : Run W} {m : Str}
    (h : compareCommits b ho rx env repo old new params filter pattern maxFiles s = (.err m, s')) :
    NoReport W rx env repo old new params filter pattern maxFiles s.state s'.state m := by
  have h : ErrsTo _ s m s'.state := ⟨s'.log, h⟩
  rw [compareCommits_revs] at h
  split at h
  · next hd =>
    obtain ⟨h1, h2⟩ := errsTo_lift.1 h
    cases h1
    exact .inl ⟨(hasDotDot_iff pattern).1 hd, h2, rfl⟩
  · next hd =>
    have hd : ¬ DotDot pattern := fun h => hd ((hasDotDot_iff pattern).2 h)
    right
    rcases errsTo_bind.1 h with h | ⟨olds, s1, h1, h⟩
    · exact .inl ⟨hd, useRev_err.1 h⟩
    · refine .inr ⟨hd, s1.state, useRev_ok.1 ⟨olds, s1.log, h1⟩, ?_⟩
      rcases errsTo_bind.1 h with h | ⟨news, s2, h2, h⟩
      · exact .inl (useRev_err.1 h)
      · obtain ⟨h3, h4⟩ := errsTo_lift.1 h
        rw [h4]
        exact .inr ⟨useRev_ok.1 ⟨news, s2.log, h2⟩, (C100_filter _ _ _ _ _ _ _ _).1 h3⟩

/-- C100: whatever goes wrong first is what is said. -/
theorem C100_said {b : Build} {ho : HashOrder} {rx : RegexEngine} {env : Env} {repo : Path} {old new : Str} {params : CompareParams}
    {filter : FilterParams} {pattern : Str} {maxFiles : Nat} {s : Run W} {s' : W.State} {m : Str}
    (h : NoReport W rx env repo old new params filter pattern maxFiles s.state s' m) :
    ∃ log, compareCommits b ho rx env repo old new params filter pattern maxFiles s = (.err m, ⟨s', log⟩) := by
  show ErrsTo _ _ _ _
  rw [compareCommits_revs]
  rcases h with ⟨hd, rfl, rfl⟩ | ⟨hd, h⟩ | ⟨hd, s1, h1, h⟩
  · rw [if_pos ((hasDotDot_iff pattern).2 hd)]
    exact errsTo_lift.2 ⟨rfl, rfl⟩
  · rw [if_neg fun h => hd ((hasDotDot_iff pattern).1 h)]
    exact errsTo_bind.2 (.inl (useRev_err.2 h))
  · rw [if_neg fun h => hd ((hasDotDot_iff pattern).1 h)]
    obtain ⟨olds, l1, h1⟩ := useRev_ok.2 h1
    rcases h with h | ⟨h2, h⟩
    · exact errsTo_bind.2 (.inr ⟨olds, _, h1, errsTo_bind.2 (.inl ((useRev_err (s := ⟨s1, l1⟩)).2 h))⟩)
    · obtain ⟨news, l2, h2⟩ := (useRev_ok (s := ⟨s1, l1⟩)).2 h2
      exact errsTo_bind.2 (.inr ⟨olds, _, h1, errsTo_bind.2 (.inr ⟨news, _, h2, errsTo_lift.2 ⟨(C100_filter _ _ _ _ _ _ _ _).2 h, rfl⟩⟩)⟩)

/-- C100: a comparison fails with a text exactly if this is what goes wrong first. -/
theorem C100_iff {b : Build} {ho : HashOrder} {rx : RegexEngine} {env : Env} {repo : Path} {old new : Str} {params : CompareParams}
    {filter : FilterParams} {pattern : Str} {maxFiles : Nat} {s : Run W}
    (s' : W.State) (m : Str) : (∃ log, compareCommits b ho rx env repo old new params filter pattern maxFiles s = (.err m, ⟨s', log⟩)) ↔
      NoReport W rx env repo old new params filter pattern maxFiles s.state s' m :=
  ⟨fun ⟨_, h⟩ => C100_why h, C100_said⟩

/-- C108: a comparison of two revisions crashes in the parser if a fatal file is reached: the tool leaves the repository at the revision that has it. -/
theorem C108_crash {b : Build} {ho : HashOrder} {rx : RegexEngine} {env : Env} {repo : Path} {old new : Str} {params : CompareParams}
    {filter : FilterParams} {pattern : Str} {maxFiles : Nat} {s : Run W} {s' : W.State}
    (h : ParserCrashes W env repo old new params pattern maxFiles s.state s') :
    ∃ log, compareCommits b ho rx env repo old new params filter pattern maxFiles s = (.panic, ⟨s', log⟩) := by
  show CrashesIn _ _ _
  obtain ⟨hd, h⟩ := h
  rw [compareCommits_revs, if_neg fun h => hd ((hasDotDot_iff pattern).1 h)]
  rcases h with h | ⟨s1, h1, h⟩
  · exact crashesIn_bind.2 (.inl (useRev_crash.2 h))
  · obtain ⟨olds, l1, h1⟩ := useRev_ok.2 h1
    exact crashesIn_bind.2 (.inr ⟨olds, _, h1, crashesIn_bind.2 (.inl ((useRev_crash (s := ⟨s1, l1⟩)).2 h))⟩)

/-- C108: built for release, this is the only way in which it crashes. -/
theorem C108_crash_iff {ho : HashOrder} {rx : RegexEngine} {env : Env} {repo : Path} {old new : Str} {params : CompareParams}
    {filter : FilterParams} {pattern : Str} {maxFiles : Nat} {s : Run W} (s' : W.State) :
    (∃ log, compareCommits .release ho rx env repo old new params filter pattern maxFiles s = (.panic, ⟨s', log⟩)) ↔
      ParserCrashes W env repo old new params pattern maxFiles s.state s' := by
  refine ⟨fun h => ?_, C108_crash⟩
  have h : CrashesIn _ s s' := h
  rw [compareCommits_revs] at h
  split at h
  · obtain ⟨l, h⟩ := h; cases h
  · next hd =>
    refine ⟨fun h => hd ((hasDotDot_iff pattern).2 h), ?_⟩
    rcases crashesIn_bind.1 h with h | ⟨olds, s1, h1, h⟩
    · exact .inl (useRev_crash.1 h)
    · refine .inr ⟨s1.state, useRev_ok.1 ⟨olds, s1.log, h1⟩, ?_⟩
      rcases crashesIn_bind.1 h with h | ⟨news, s2, h2, l, h⟩
      · exact useRev_crash.1 h
      · rcases C32_total ho rx olds news params filter with ⟨d, h'⟩ | ⟨⟨m, h'⟩, -⟩ <;> rw [h'] at h <;> cases h

/-! ### Concrete cases -/

example : debugStr asciiClass.plain (str% "a \"b\"\n\\c\x07é") = str% "\"a \\\"b\\\"\\n\\\\c\\u{7}\\u{e9}\"" := by decide +kernel
example : Hexadecimal 0x1f600 (str% "1f600") ∧ ¬ Hexadecimal 7 (str% "07") :=
  ⟨⟨by decide, by decide, by decide, by decide⟩, fun h => absurd (h.lead rfl) (by decide)⟩

/-- In the revision `v2`, the files are not Rust programs. -/
def exProseEnv : Env := ⟨fun c => if c = str% "v2" then .error (str% "expected item") else exEnv.syn c, asciiClass⟩

/-- The error of a comparison. -/
def errorOf {α : Type} : Res α → Option Str
  | .err m => some m
  | _ => none

/-- What is said about comparisons in `exWorld`. -/
def exWhy (env : Env) (old new pattern : Str) (force ignore : Bool) (max : Nat) : Option Str :=
  errorOf (compareCommits (W := exWorld) .release idOrder exRegex env [.normal (str% "r")] old new ⟨.base, .time, ignore, true, force, false⟩ exFilter pattern max
    ⟨str% "start", []⟩).1

example : exWhy exEnv (str% "v1") (str% "v3") (str% "*") true false 2 = some (str% "\"Failed to reset branch: no such revision\"") := by decide +kernel
example : exWhy exEnv (str% "v3") (str% "v1") (str% "*") false false 2 = some (str% "\"Failed to checkout branch: no such branch\"") := by decide +kernel
example : exWhy exEnv (str% "v1") (str% "v2") (str% "*,[") true false 2 = some (str% "Invalid path pattern: invalid") := by decide +kernel
example : exWhy exEnv (str% "v1") (str% "v2") (str% "*,*") true false 3 = some (str% "Found too many files. Found: 4, Max: 3") := by decide +kernel
example : exWhy exProseEnv (str% "v1") (str% "v2") (str% "*") true false 2 = some (str% "r/a.rs: syn refused to parse content: \"v2\": expected item") := by decide +kernel
example : exWhy exProseEnv (str% "v1") (str% "v2") (str% "*") true true 2 = none := by decide +kernel

/-- The hypothesis of `C100_why` is met, and that of `C100_said`: the new revision has files that are not Rust programs. -/
example : ∃ s', NoReport exWorld exRegex exProseEnv [.normal (str% "r")] (str% "v1") (str% "v2") ⟨.base, .time, false, true, true, false⟩ exFilter (str% "*") 2
    (str% "start") s' (str% "r/a.rs: syn refused to parse content: \"v2\": expected item") := by
  have h : exWhy exProseEnv (str% "v1") (str% "v2") (str% "*") true false 2 = some (str% "r/a.rs: syn refused to parse content: \"v2\": expected item") := by decide +kernel
  unfold exWhy at h
  generalize hc : compareCommits (W := exWorld) .release idOrder exRegex exProseEnv [.normal (str% "r")] (str% "v1") (str% "v2") ⟨.base, .time, false, true, true, false⟩
    exFilter (str% "*") 2 ⟨str% "start", []⟩ = out at h
  obtain ⟨r, s'⟩ := out
  cases r with
  | err m => cases h; exact ⟨s'.state, C100_why hc⟩
  | ok _ => cases h
  | panic => cases h
  | diverge => cases h

/-- In the revision `v2`, the weight is 2^128. -/
def exHugeEnv : Env := ⟨fun c => .ok [.impl (.path false [str% "SubstrateWeight"]) [.fn (exFn (if c = str% "v1" then str% "10" else
  str% "340282366920938463463374607431768211456"))]], asciiClass⟩

/-- The hypothesis of `C108_crash` is met: the old revision is understood, the new one is fatal. -/
example : ParserCrashes exWorld exHugeEnv [.normal (str% "r")] (str% "v1") (str% "v2") ⟨.base, .time, false, true, true, false⟩ (str% "*") 2 (str% "start") (str% "v2") := by
  have key : ∀ x : Res (List ExtrinsicDiff) × Run exWorld, (match x.1 with | .panic => true | _ => false) = true → (x.2.state : Str).beq (str% "v2") = true →
      ∃ log, x = (.panic, ⟨str% "v2", log⟩) := by
    rintro ⟨r, s, l⟩ h1 h2
    have h2 : s = str% "v2" := eq_of_beq (α := List Char) h2
    subst h2
    cases r with
    | panic => exact ⟨l, rfl⟩
    | ok _ => cases h1
    | err _ => cases h1
    | diverge => cases h1
  exact (C108_crash_iff (W := exWorld) (ho := idOrder) (rx := exRegex) (filter := exFilter) (s := ⟨str% "start", []⟩) (str% "v2")).1
    (key _ (by decide +kernel) (by decide +kernel))

end Swc
