/-
C62: the branch listing.
-/
import Verif.Spec.Branches
import Verif.Lemmas.Prog

namespace Swc

open Spec

/-! ### The functions of the standard library -/

theorem go_cur (s cur : Str) (hc : cur ≠ []) : ∃ w r, s = w ++ r ∧ (∀ c ∈ w, isSpace c = false) ∧ (∀ c, r.head? = some c → isSpace c = true) ∧
    splitWhitespace.go s cur = (cur.reverse ++ w) :: splitWhitespace.go r [] := by
  induction s generalizing cur with
  | nil =>
    refine ⟨[], [], rfl, by simp, by simp, ?_⟩
    obtain ⟨x, l, rfl⟩ := List.exists_cons_of_ne_nil hc
    simp [splitWhitespace.go]
  | cons x s ih =>
    by_cases hx : isSpace x = true
    · refine ⟨[], x :: s, rfl, by simp, by simpa using hx, ?_⟩
      simp [splitWhitespace.go, hx, hc]
    · obtain ⟨w, r, rfl, h1, h2, h3⟩ := ih (x :: cur) (by simp)
      refine ⟨x :: w, r, rfl, ?_, h2, ?_⟩
      · intro c hc
        rcases List.mem_cons.1 hc with rfl | hc
        · simpa using hx
        · exact h1 c hc
      · simp [splitWhitespace.go, hx, h3]

/-- `split_whitespace` gives the words. -/
theorem splitWhitespace_words (s : Str) : Words s (splitWhitespace s) := by
  unfold splitWhitespace
  generalize hn : s.length = n
  induction n using Nat.strongRecOn generalizing s with
  | _ n ih =>
    -- skip leading space
    cases s with
    | nil => exact .none (by simp)
    | cons x s =>
      by_cases hx : isSpace x = true
      · have := ih s.length (by simp at hn; omega) s rfl
        simp only [splitWhitespace.go, hx, if_true]
        generalize splitWhitespace.go s [] = ws at this
        cases this with
        | none h => exact .none (by intro c hc; rcases List.mem_cons.1 hc with rfl | hc; exacts [hx, h c hc])
        | @some p w r ws hp hw hnw hr h =>
          have := Words.some (p := x :: p) (by intro c hc; rcases List.mem_cons.1 hc with rfl | hc; exacts [hx, hp c hc]) hw hnw hr h
          simpa using this
      · obtain ⟨w, r, rfl, h1, h2, h3⟩ := go_cur s [x] (by simp)
        simp only [splitWhitespace.go, hx, h3]
        have := ih r.length (by simp at hn; omega) r rfl
        have := Words.some (p := []) (w := x :: w) (r := r) (by simp) (by simp)
          (by intro c hc; rcases List.mem_cons.1 hc with rfl | hc; exacts [by simpa using hx, h1 c hc]) h2 this
        simpa using this

/-- A string has only one sequence of words. -/
theorem words_unique {s : Str} {ws vs : List Str} (h : Words s ws) (h' : Words s vs) : ws = vs := by
  have split : ∀ {p w r p' w' r' : Str}, (∀ c ∈ p, isSpace c = true) → (∀ c ∈ p', isSpace c = true) → w ≠ [] → w' ≠ [] →
      (∀ c ∈ w, isSpace c = false) → (∀ c ∈ w', isSpace c = false) → (∀ c, r.head? = some c → isSpace c = true) →
      (∀ c, r'.head? = some c → isSpace c = true) → p ++ w ++ r = p' ++ w' ++ r' → w = w' ∧ r = r' := by
    intro p w r p' w' r' hp hp' hw hw' hn hn' hr hr' he
    have drop : ∀ {p w r : Str}, (∀ c ∈ p, isSpace c = true) → w ≠ [] → (∀ c ∈ w, isSpace c = false) →
        (∀ c, r.head? = some c → isSpace c = true) →
        (p ++ w ++ r).dropWhile isSpace = w ++ r ∧ (w ++ r).takeWhile (fun c => !isSpace c) = w ∧ (w ++ r).dropWhile (fun c => !isSpace c) = r := by
      intro p w r hp hw hn hr
      refine ⟨?_, ?_, ?_⟩
      · rw [List.append_assoc, List.dropWhile_append_of_pos hp]
        obtain ⟨x, w, rfl⟩ := List.exists_cons_of_ne_nil hw
        rw [List.cons_append, List.dropWhile_cons_of_neg]
        rw [hn x (by simp)]; decide
      · rw [List.takeWhile_append_of_pos (by intro c hc; rw [hn c hc]; rfl)]
        cases r with
        | nil => simp
        | cons y r =>
          have := hr y rfl
          simp [this]
      · rw [List.dropWhile_append_of_pos (by intro c hc; rw [hn c hc]; rfl)]
        cases r with
        | nil => simp
        | cons y r =>
          have := hr y rfl
          simp [this]
    have h1 := drop hp hw hn hr
    have h2 := drop hp' hw' hn' hr'
    have e : w ++ r = w' ++ r' := by rw [← h1.1, he, h2.1]
    exact ⟨by rw [← h1.2.1, e, h2.2.1], by rw [← h1.2.2, e, h2.2.2]⟩
  induction h generalizing vs with
  | none h =>
    cases h' with
    | none => rfl
    | @some p w r ws hp hw hn hr h2 =>
      obtain ⟨x, w, rfl⟩ := List.exists_cons_of_ne_nil hw
      have h3 := h x (by simp)
      rw [hn x (by simp)] at h3
      cases h3
  | @some p w r ws hp hw hn hr h ih =>
    generalize hs : p ++ w ++ r = s at h'
    cases h' with
    | none h2 =>
      obtain ⟨x, w, rfl⟩ := List.exists_cons_of_ne_nil hw
      have h3 := h2 x (by rw [← hs]; simp)
      rw [hn x (by simp)] at h3
      cases h3
    | @some p' w' r' ws' hp' hw' hn' hr' h2 =>
      obtain ⟨rfl, rfl⟩ := split hp hp' hw hw' hn hn' hr hr' hs
      rw [ih h2]

/-- `&s[..n]` is the prefix of `n` bytes, if there is one. -/
theorem takeBytes_iff (n : Nat) (s t : Str) : takeBytes n s = some t ↔ ∃ r, s = t ++ r ∧ bytes t = n := by
  have hpos : ∀ c : Char, 0 < c.utf8Size := fun c => Char.utf8Size_pos c
  fun_induction takeBytes n s generalizing t with
  | case1 s =>
    constructor
    · intro h; cases h; exact ⟨s, rfl, rfl⟩
    · rintro ⟨r, rfl, h⟩
      cases t with
      | nil => rfl
      | cons c t => simp only [bytes, List.map_cons, List.sum_cons] at h; have := hpos c; omega
  | case2 n =>
    constructor
    · intro h; cases h
    · rintro ⟨r, h, hb⟩
      cases t with
      | nil => cases hb
      | cons c t => cases h
  | case3 n c s h ih =>
    rw [Option.map_eq_some_iff]
    constructor
    · rintro ⟨t, ht, rfl⟩
      obtain ⟨r, rfl, hb⟩ := (ih t).1 ht
      refine ⟨r, rfl, ?_⟩
      simp only [bytes, List.map_cons, List.sum_cons] at hb ⊢
      omega
    · rintro ⟨r, he, hb⟩
      cases t with
      | nil => cases hb
      | cons d t =>
        rw [List.cons_append, List.cons.injEq] at he
        obtain ⟨rfl, rfl⟩ := he
        refine ⟨t, (ih t).2 ⟨r, rfl, ?_⟩, rfl⟩
        simp only [bytes, List.map_cons, List.sum_cons] at hb ⊢
        omega
  | case4 n c s h =>
    constructor
    · intro h; cases h
    · rintro ⟨r, he, hb⟩
      cases t with
      | nil => cases hb
      | cons d t =>
        rw [List.cons_append, List.cons.injEq] at he
        obtain ⟨rfl, rfl⟩ := he
        simp only [bytes, List.map_cons, List.sum_cons] at hb
        omega

/-- Nothing is removed if the pattern does not occur. -/
theorem removeAll_noop {pat s : Str} (h : ¬ Inside pat s) : removeAll pat s = s := by
  fun_induction removeAll pat s with
  | case1 => rfl
  | case2 c t hc ih =>
    exact absurd (List.IsPrefix.isInfix (List.isPrefixOf_iff_prefix.1 hc.2)) h
  | case3 c t hc ih => rw [ih fun hi => h (hi.trans (List.suffix_cons c t).isInfix)]

/-- The first occurrence is removed. -/
theorem removeAll_first {pat p s : Str} (hpat : pat ≠ []) (h : ∀ q r, p = q ++ r → r ≠ [] → ¬ pat <+: r ++ pat ++ s) :
    removeAll pat (p ++ pat ++ s) = p ++ removeAll pat s := by
  induction p with
  | nil =>
    obtain ⟨c, t, rfl⟩ := List.exists_cons_of_ne_nil hpat
    simp only [List.nil_append, List.cons_append]
    rw [removeAll, if_pos]
    · simp
    · refine ⟨by simp, ?_⟩
      rw [List.isPrefixOf_iff_prefix, ← List.cons_append]
      exact List.prefix_append _ _
  | cons c p ih =>
    simp only [List.cons_append]
    rw [removeAll, if_neg, ih]
    · intro q r hp hr
      exact h (c :: q) r (by rw [hp]; rfl) hr
    · rintro ⟨-, hp⟩
      rw [List.isPrefixOf_iff_prefix] at hp
      exact h [] (c :: p) rfl (by simp) (by simpa using hp)

theorem splitChar_no {d : Char} {l : Str} (h : d ∉ l) : splitChar d l = [l] := by
  induction l with
  | nil => rfl
  | cons x l ih =>
    have h1 : x ≠ d := fun e => h (by simp [e])
    have h2 := ih fun hm => h (by simp [hm])
    rw [splitChar, if_neg h1, h2]

theorem splitChar_cons {d : Char} {l s : Str} (h : d ∉ l) : splitChar d (l ++ d :: s) = l :: splitChar d s := by
  induction l with
  | nil => simp [splitChar]
  | cons x l ih =>
    have h1 : x ≠ d := fun e => h (by simp [e])
    have h2 := ih fun hm => h (by simp [hm])
    rw [List.cons_append, splitChar, if_neg h1, h2]

theorem splitChar_ne_nil (d : Char) (s : Str) : splitChar d s ≠ [] := by
  cases s with
  | nil => simp [splitChar]
  | cons x s =>
    rw [splitChar]
    split
    · simp
    · split <;> simp

theorem lines_nil : lines [] = [] := rfl

/-- The first line. -/
theorem lines_cons {l s : Str} (h : '\n' ∉ l) : lines (l ++ '\n' :: s) = stripCr l :: lines s := by
  unfold lines
  rw [splitChar_cons h]
  obtain ⟨x, xs, hx⟩ := List.exists_cons_of_ne_nil (splitChar_ne_nil '\n' s)
  rw [hx]
  simp

/-- The last line, without a final newline. -/
theorem lines_last {l : Str} (h : '\n' ∉ l) (hl : l ≠ []) : lines l = [l] := by
  unfold lines
  rw [splitChar_no h]
  obtain ⟨x, xs, rfl⟩ := List.exists_cons_of_ne_nil hl
  simp

/-! ### C62 -/

/-- The line after the prefixes of full names have been removed. -/
def shortened (l : Str) : Str := removeAll (str% "refs/tags/") (removeAll (str% "refs/heads/") l)

/-- The lines that are kept. -/
def keptLines (stdout : Str) : List Str := (lines stdout).filter fun l => !l.contains '{' && !l.contains '^'

/-- C62: a line is understood iff it has two words, the first with a prefix of twelve bytes; otherwise the handler panics. -/
theorem C62_line (l : Str) : (∀ name hash, branchOf l = .ok (name, hash) ↔ ∃ w ws r, Words l (w :: name :: ws) ∧ w = hash ++ r ∧ bytes hash = 12)
    ∧ (branchOf l = .panic ↔ ∀ w name ws, Words l (w :: name :: ws) → ∀ t r, w = t ++ r → bytes t ≠ 12) := by
  have hw := splitWhitespace_words l
  unfold branchOf
  match hs : splitWhitespace l with
  | [] =>
    rw [hs] at hw
    refine ⟨fun name hash => ⟨fun h => (by cases h), fun ⟨w, ws, r, h, _⟩ => ?_⟩, fun _ w name ws h => ?_, fun _ => rfl⟩
    · have := words_unique hw h; cases this
    · have := words_unique hw h; cases this
  | [x] =>
    rw [hs] at hw
    refine ⟨fun name hash => ⟨fun h => (by cases h), fun ⟨w, ws, r, h, _⟩ => ?_⟩, fun _ w name ws h => ?_, fun _ => rfl⟩
    · have := words_unique hw h; cases this
    · have := words_unique hw h; cases this
  | x :: y :: vs =>
    rw [hs] at hw
    cases ht : takeBytes 12 x with
    | none =>
      have hno : ∀ t r, x = t ++ r → bytes t ≠ 12 := by
        intro t r he hb
        have := (takeBytes_iff 12 x t).2 ⟨r, he, hb⟩
        rw [ht] at this
        cases this
      simp only [ht]
      refine ⟨fun name hash => ⟨fun h => (by cases h), fun ⟨w, ws, r, h, he, hb⟩ => ?_⟩, fun _ w name ws h t r he => ?_, fun _ => trivial⟩
      · have := words_unique hw h
        cases this
        exact absurd hb (hno hash r he)
      · have := words_unique hw h
        cases this
        exact hno t r he
    | some t =>
      obtain ⟨r, he, hb⟩ := (takeBytes_iff 12 x t).1 ht
      simp only [ht]
      refine ⟨fun name hash => ⟨fun h => ?_, fun ⟨w, ws, r', h, he', hb'⟩ => ?_⟩, fun h => (by cases h), fun h => ?_⟩
      · cases h
        exact ⟨x, vs, r, hw, he, hb⟩
      · have := words_unique hw h
        cases this
        have := (takeBytes_iff 12 x hash).2 ⟨r', he', hb'⟩
        rw [ht] at this
        cases this
        rfl
      · exact absurd hb (h x y vs hw t r he)

theorem branchOf_cases (l : Str) : (∃ x, branchOf l = .ok x) ∨ branchOf l = .panic := by
  unfold branchOf
  split
  · split
    · exact Or.inl ⟨_, rfl⟩
    · exact Or.inr rfl
  · exact Or.inr rfl

theorem mapM_branch {f : Str → Res (Str × Str)} (hf : ∀ l, (∃ x, f l = .ok x) ∨ f l = .panic) (ls : List Str) :
    ((∃ xs, ls.mapM f = .ok xs) ∧ ∀ l ∈ ls, f l ≠ .panic) ∨ (ls.mapM f = .panic ∧ ∃ l ∈ ls, f l = .panic) := by
  induction ls with
  | nil => exact Or.inl ⟨⟨[], rfl⟩, by simp⟩
  | cons l ls ih =>
    rw [List.mapM_cons]
    rcases hf l with ⟨x, hx⟩ | hx
    · rw [hx, Res.bind_ok]
      rcases ih with ⟨⟨xs, h1⟩, h2⟩ | ⟨h1, l', h2, h3⟩
      · rw [h1]
        refine Or.inl ⟨⟨x :: xs, rfl⟩, ?_⟩
        intro l' hl'
        rcases List.mem_cons.1 hl' with rfl | hl'
        · rw [hx]; exact fun h => by cases h
        · exact h2 l' hl'
      · rw [h1]
        exact Or.inr ⟨rfl, l', by simp [h2], h3⟩
    · rw [hx]
      exact Or.inr ⟨rfl, l, by simp, hx⟩

/-- C62: the handler panics exactly if one of the kept lines, after removing `refs/heads/` and `refs/tags/`, does not have two words, or its
first word has no prefix of twelve bytes; it never returns an error. -/
theorem C62_panics_iff (stdout : Str) : (parseBranches stdout = .panic ↔ ∃ l ∈ keptLines stdout, ∀ w name ws,
      Words (shortened l) (w :: name :: ws) → ∀ t r, w = t ++ r → bytes t ≠ 12)
    ∧ (parseBranches stdout ≠ .panic → ∃ bs, parseBranches stdout = .ok bs) := by
  have h := mapM_branch (f := fun l => branchOf (shortened l)) (fun l => branchOf_cases _) (keptLines stdout)
  have e : parseBranches stdout = (keptLines stdout).mapM fun l => branchOf (shortened l) := rfl
  rw [← e] at h
  refine ⟨?_, ?_⟩
  · rcases h with ⟨⟨xs, h1⟩, h2⟩ | ⟨h1, l, h2, h3⟩
    · rw [h1]
      refine ⟨fun h => (by cases h), fun ⟨l, hl, hp⟩ => ?_⟩
      exact absurd ((C62_line (shortened l)).2.2 hp) (h2 l hl)
    · exact ⟨fun _ => ⟨l, h2, (C62_line (shortened l)).2.1 h3⟩, fun _ => h1⟩
  · intro hp
    rcases h with ⟨h1, h2⟩ | ⟨h1, -⟩
    · exact h1
    · exact absurd h1 hp

theorem hex_facts {c : Char} (h : isHex c = true) : isSpace c = false ∧ c ≠ 'r' ∧ c ≠ '{' ∧ c ≠ '^' ∧ c.utf8Size = 1 ∧ c ≠ '\n' := by
  simp only [isHex, Bool.or_eq_true, Bool.and_eq_true, decide_eq_true_eq] at h
  have hn : (48 ≤ c.toNat ∧ c.toNat ≤ 57) ∨ (97 ≤ c.toNat ∧ c.toNat ≤ 102) := h
  refine ⟨?_, ?_, ?_, ?_, ?_, ?_⟩
  · simp only [isSpace, Bool.or_eq_false_iff, Bool.and_eq_false_iff, decide_eq_false_iff_not, beq_eq_false_iff_ne]
    omega
  · rintro rfl; revert hn; decide
  · rintro rfl; revert hn; decide
  · rintro rfl; revert hn; decide
  · rw [Char.utf8Size_eq_one_iff]
    have : c.val.toNat ≤ 127 := by show c.toNat ≤ 127; omega
    exact UInt32.le_iff_toNat_le.2 this
  · rintro rfl; revert hn; decide

theorem bytes_ascii {s : Str} (h : ∀ c ∈ s, c.utf8Size = 1) : bytes s = s.length := by
  induction s with
  | nil => rfl
  | cons c s ih =>
    have h1 := h c (by simp)
    have h2 := ih fun d hd => h d (by simp [hd])
    simp only [bytes, List.map_cons, List.sum_cons, List.length_cons] at h2 ⊢
    omega

/-- An occurrence of `pat` starts with its first letter. -/
theorem no_prefix {x : Char} {t l s : Str} (h : ∀ c ∈ l, c ≠ x) (hl : l ≠ []) : ¬ (x :: t) <+: l ++ s := by
  obtain ⟨y, l, rfl⟩ := List.exists_cons_of_ne_nil hl
  rintro ⟨u, hu⟩
  simp only [List.cons_append, List.cons.injEq] at hu
  exact h y (by simp) hu.1.symm

theorem inside_skip {x : Char} {t l s : Str} (h : ∀ c ∈ l, c ≠ x) : Inside (x :: t) (l ++ s) ↔ Inside (x :: t) s := by
  induction l with
  | nil => rfl
  | cons y l ih =>
    rw [← ih fun c hc => h c (by simp [hc])]
    unfold Inside
    rw [List.cons_append, List.infix_cons_iff]
    constructor
    · rintro (hp | hp)
      · obtain ⟨u, hu⟩ := hp
        simp only [List.cons_append, List.cons.injEq] at hu
        exact absurd hu.1.symm (h y (by simp))
      · exact hp
    · exact Or.inr

theorem shortened_line {r : Ref} (hw : r.WellFormed) (hp : r.Plain) : shortened r.line = r.hash ++ '\t' :: r.name := by
  have hh : ∀ c ∈ r.hash ++ ['\t'], c ≠ 'r' := by
    intro c hc
    rcases List.mem_append.1 hc with hc | hc
    · exact (hex_facts (hw.hash.2 c hc)).2.1
    · rw [List.mem_singleton] at hc; subst hc; decide
  have first : ∀ (u s : Str), removeAll ('r' :: u) ((r.hash ++ ['\t']) ++ 'r' :: u ++ s) = (r.hash ++ ['\t']) ++ removeAll ('r' :: u) s := by
    intro u s
    refine removeAll_first (by simp) fun q t hq ht => ?_
    rw [List.append_assoc]
    exact no_prefix (fun c hc => hh c (by rw [hq]; simp [hc])) ht
  have skip : ∀ u : Str, ¬ Inside ('r' :: u) r.name → removeAll ('r' :: u) ((r.hash ++ ['\t']) ++ r.name) = (r.hash ++ ['\t']) ++ r.name := by
    intro u hu
    exact removeAll_noop fun h => hu ((inside_skip hh).1 h)
  unfold shortened
  cases ht : r.tag with
  | false =>
    have e : r.line = (r.hash ++ ['\t']) ++ str% "refs/heads/" ++ r.name := by simp [Ref.line, Ref.full, ht]
    rw [e, first, removeAll_noop hp.1, skip _ hp.2]
    simp
  | true =>
    have e : r.line = (r.hash ++ ['\t']) ++ str% "refs/tags/" ++ r.name := by simp [Ref.line, Ref.full, ht]
    have e2 : removeAll (str% "refs/heads/") r.line = r.line := by
      refine removeAll_noop fun h => ?_
      rw [e, List.append_assoc, inside_skip hh] at h
      unfold Inside at h
      rw [List.cons_append, List.infix_cons_iff] at h
      rcases h with ⟨u, hu⟩ | h
      · simp at hu
      · have : (['e', 'f', 's', '/', 't', 'a', 'g', 's', '/'] ++ r.name) = [] ++ (['e', 'f', 's', '/', 't', 'a', 'g', 's', '/'] ++ r.name) := rfl
        exact hp.1 ((inside_skip (l := ['e', 'f', 's', '/', 't', 'a', 'g', 's', '/']) (by decide)).1 h)
    rw [e2, e, first, removeAll_noop hp.2]
    simp

theorem branchOf_ref {r : Ref} (hw : r.WellFormed) (hp : r.Plain) : branchOf (shortened r.line) = .ok (r.name, r.hash.take 12) := by
  rw [shortened_line hw hp]
  refine ((C62_line _).1 _ _).2 ⟨r.hash, [], r.hash.drop 12, ?_, (List.take_append_drop 12 r.hash).symm, ?_⟩
  · have h1 : Words (r.hash ++ '\t' :: r.name) [r.hash, r.name] := by
      have h2 : Words ('\t' :: r.name) [r.name] := by
        have := Words.some (p := ['\t']) (w := r.name) (r := []) (ws := []) (by decide) hw.name.1 hw.name.2 (by simp) (.none (by simp))
        simpa using this
      have h3 : r.hash ≠ [] := by
        intro h; have := hw.hash.1; rw [h] at this; simp at this
      exact Words.some (p := []) (w := r.hash) (r := '\t' :: r.name) (by simp) h3 (fun c hc => (hex_facts (hw.hash.2 c hc)).1)
        (by intro c hc; cases hc; decide) h2
    exact h1
  · rw [bytes_ascii fun c hc => (hex_facts (hw.hash.2 c (List.mem_of_mem_take hc))).2.2.2.2.1, List.length_take]
    have := hw.hash.1
    omega

theorem space_newline : isSpace '\n' = true := by decide
theorem space_cr : isSpace '\r' = true := by decide

theorem line_no_newline {r : Ref} (hw : r.WellFormed) : '\n' ∉ r.line := by
  intro h
  simp only [Ref.line, Ref.full, List.mem_append] at h
  rcases h with (h | h) | h | h
  · exact (hex_facts (hw.hash.2 _ h)).2.2.2.2.2 rfl
  · revert h; decide
  · revert h; cases r.tag <;> decide
  · have := hw.name.2 _ h; rw [space_newline] at this; cases this

theorem line_no_cr {r : Ref} (hw : r.WellFormed) : stripCr r.line = r.line := by
  unfold stripCr
  rw [if_neg]
  intro h
  have hm : '\r' ∈ r.name := by
    have : r.line.getLast? = r.name.getLast? := by
      unfold Ref.line Ref.full
      rw [← List.append_assoc, List.getLast?_append_of_ne_nil _ hw.name.1]
    rw [this] at h
    exact List.mem_of_getLast? h
  have := hw.name.2 _ hm
  rw [space_cr] at this
  cases this

theorem lines_output {rs : List Ref} (h : ∀ r ∈ rs, r.WellFormed) : lines (output rs) = rs.map Ref.line := by
  induction rs with
  | nil => rfl
  | cons r rs ih =>
    have hr := h r (by simp)
    have e : output (r :: rs) = r.line ++ '\n' :: output rs := by simp [output]
    rw [e, lines_cons (line_no_newline hr), line_no_cr hr, ih fun r' h' => h r' (by simp [h'])]
    rfl

theorem line_kept {r : Ref} (hw : r.WellFormed) : (!r.line.contains '{' && !r.line.contains '^') = r.wanted := by
  have key : ∀ d : Char, (∀ c, isHex c = true → c ≠ d) → d ∉ str% "\t" → d ∉ str% "refs/tags/" → d ∉ str% "refs/heads/" →
      r.line.contains d = r.name.contains d := by
    intro d h1 h2 h3 h4
    rw [Bool.eq_iff_iff, List.contains_iff_mem, List.contains_iff_mem]
    simp only [Ref.line, Ref.full, List.mem_append]
    constructor
    · rintro ((h | h) | h | h)
      · exact absurd rfl (h1 d (hw.hash.2 d h))
      · exact absurd h h2
      · split at h
        · exact absurd h h3
        · exact absurd h h4
      · exact h
    · exact fun h => Or.inr (Or.inr h)
  rw [key '{' (fun c hc => (hex_facts hc).2.2.1) (by decide) (by decide) (by decide),
    key '^' (fun c hc => (hex_facts hc).2.2.2.1) (by decide) (by decide) (by decide)]
  rfl

/-- C62: for every well-formed listing (and names that do not themselves contain `refs/heads/` or `refs/tags/`), the answer has one pair for
each reference without `{` and `^`, in order: its short name and the first twelve digits of its hash. -/
theorem C62_well_formed {rs : List Ref} (h : ∀ r ∈ rs, r.WellFormed ∧ r.Plain) :
    parseBranches (output rs) = .ok ((rs.filter Ref.wanted).map fun r => (r.name, r.hash.take 12)) := by
  unfold parseBranches
  rw [lines_output fun r hr => (h r hr).1]
  induction rs with
  | nil => rfl
  | cons r rs ih =>
    have hr := h r (by simp)
    have ih := ih fun r' h' => h r' (by simp [h'])
    rw [List.map_cons, List.filter_cons, List.filter_cons, line_kept hr.1]
    cases r.wanted with
    | false => simpa using ih
    | true =>
      simp only [if_true, List.mapM_cons, List.map_cons]
      have e : branchOf (removeAll (str% "refs/tags/") (removeAll (str% "refs/heads/") r.line)) = _ := branchOf_ref hr.1 hr.2
      rw [e, Res.bind_ok, ih]
      rfl

theorem removeAll_skip {x : Char} {t l s : Str} (h : ∀ c ∈ l, c ≠ x) : removeAll (x :: t) (l ++ s) = l ++ removeAll (x :: t) s := by
  induction l with
  | nil => rfl
  | cons y l ih =>
    rw [List.cons_append, removeAll, if_neg, ih fun c hc => h c (by simp [hc])]
    · rfl
    · rintro ⟨-, hp⟩
      rw [List.isPrefixOf_iff_prefix] at hp
      exact no_prefix (l := y :: l) h (by simp) hp

theorem removeAll_mem {pat s : Str} {c : Char} (h : c ∈ removeAll pat s) : c ∈ s := by
  fun_induction removeAll pat s with
  | case1 => exact h
  | case2 d t hc ih => exact List.mem_of_mem_drop (ih h)
  | case3 d t hc ih =>
    rcases List.mem_cons.1 h with rfl | h
    · simp
    · simp [ih h]

/-- A last character other than that of the pattern stays. -/
theorem removeAll_last {pat s : Str} (hs : s ≠ []) (h : s.getLast? ≠ pat.getLast?) : (removeAll pat s).getLast? = s.getLast? := by
  fun_induction removeAll pat s with
  | case1 => exact absurd rfl hs
  | case2 d t hc ih =>
    obtain ⟨u, hu⟩ := List.isPrefixOf_iff_prefix.1 hc.2
    have hu0 : u ≠ [] := by
      rintro rfl
      rw [List.append_nil] at hu
      exact h (by rw [hu])
    rw [← hu, List.drop_left] at ih ⊢
    have e : (pat ++ u).getLast? = u.getLast? := List.getLast?_append_of_ne_nil _ hu0
    rw [e]
    refine ih hu0 ?_
    rw [← hu, e] at h
    exact h
  | case3 d t hc ih =>
    cases t with
    | nil => simp [removeAll]
    | cons y t =>
      have e : (d :: y :: t).getLast? = (y :: t).getLast? := by simp [List.getLast?_cons_cons]
      rw [e] at h ⊢
      have h1 := ih (by simp) h
      have hne : removeAll pat (y :: t) ≠ [] := by
        intro h0
        rw [h0] at h1
        exact absurd (List.getLast?_eq_none_iff.1 h1.symm) (by simp)
      obtain ⟨z, zs, hz⟩ := List.exists_cons_of_ne_nil hne
      rw [hz] at h1 ⊢
      rw [List.getLast?_cons_cons]
      exact h1

/-- C62: well-formed listings never make the handler panic, whatever the names are, as long as none ends in `/` (git forbids that). -/
theorem C62_no_panic {rs : List Ref} (h : ∀ r ∈ rs, r.WellFormed ∧ r.name.getLast? ≠ some '/') : ∃ bs, parseBranches (output rs) = .ok bs := by
  refine (C62_panics_iff _).2 fun hp => ?_
  obtain ⟨l, hl, hbad⟩ := (C62_panics_iff _).1.1 hp
  unfold keptLines at hl
  rw [lines_output fun r hr => (h r hr).1] at hl
  obtain ⟨r, hr, rfl⟩ := List.mem_map.1 (List.mem_of_mem_filter hl)
  obtain ⟨hw, hlast⟩ := h r hr
  have hh : ∀ c ∈ r.hash ++ ['\t'], c ≠ 'r' := by
    intro c hc
    rcases List.mem_append.1 hc with hc | hc
    · exact (hex_facts (hw.hash.2 c hc)).2.1
    · rw [List.mem_singleton] at hc; subst hc; decide
  have e : shortened r.line = (r.hash ++ ['\t']) ++ removeAll (str% "refs/tags/") (removeAll (str% "refs/heads/") r.full) := by
    unfold shortened
    have : r.line = (r.hash ++ ['\t']) ++ r.full := rfl
    rw [this, removeAll_skip hh, removeAll_skip hh]
  have hf : r.full.getLast? = r.name.getLast? := by
    unfold Ref.full
    rw [List.getLast?_append_of_ne_nil _ hw.name.1]
  have hf0 : r.full ≠ [] := by
    intro h0; rw [h0] at hf
    exact hw.name.1 (List.getLast?_eq_none_iff.1 hf.symm)
  have h1 := removeAll_last (pat := str% "refs/heads/") hf0 (by rw [hf]; exact hlast)
  have h10 : removeAll (str% "refs/heads/") r.full ≠ [] := by
    intro h0; rw [h0] at h1; exact hf0 (List.getLast?_eq_none_iff.1 h1.symm)
  have h2 := removeAll_last (pat := str% "refs/tags/") h10 (by rw [h1, hf]; exact hlast)
  have h20 : removeAll (str% "refs/tags/") (removeAll (str% "refs/heads/") r.full) ≠ [] := by
    intro h0; rw [h0] at h2; exact h10 (List.getLast?_eq_none_iff.1 h2.symm)
  have h3 : ∀ c ∈ removeAll (str% "refs/tags/") (removeAll (str% "refs/heads/") r.full), isSpace c = false := by
    intro c hc
    have := removeAll_mem (removeAll_mem hc)
    unfold Ref.full at this
    rcases List.mem_append.1 this with hc | hc
    · have hno : ∀ d ∈ str% "refs/tags/" ++ str% "refs/heads/", isSpace d = false := by decide
      split at hc
      · exact hno c (List.mem_append_left _ hc)
      · exact hno c (List.mem_append_right _ hc)
    · exact hw.name.2 c hc
  generalize removeAll (str% "refs/tags/") (removeAll (str% "refs/heads/") r.full) = z at e h20 h3
  have hwords : Words (shortened r.line) [r.hash, z] := by
    rw [e]
    have h2 : Words ('\t' :: z) [z] := by
      have := Words.some (p := ['\t']) (w := z) (r := []) (ws := []) (by decide) h20 h3 (by simp) (.none (by simp))
      simpa using this
    have h3 : r.hash ≠ [] := by
      intro h; have := hw.hash.1; rw [h] at this; simp at this
    have := Words.some (p := []) (w := r.hash) (r := '\t' :: z) (by simp) h3 (fun c hc => (hex_facts (hw.hash.2 c hc)).1)
      (by intro c hc; cases hc; decide) h2
    simpa using this
  refine hbad _ _ _ hwords (r.hash.take 12) (r.hash.drop 12) (List.take_append_drop 12 r.hash).symm ?_
  rw [bytes_ascii fun c hc => (hex_facts (hw.hash.2 c (List.mem_of_mem_take hc))).2.2.2.2.1, List.length_take]
  have := hw.hash.1
  omega

/-- An annotated tag is listed twice by git; the peeled one is left out. -/
example : parseBranches (str% "0123456789abcdef0123456789abcdef01234567\trefs/heads/main\n89abcdef0123456789abcdef0123456789abcdef\trefs/tags/v1^{}\n89abcdef0123456789abcdef0123456789abcdef\trefs/tags/v1\n")
    = .ok [(str% "main", str% "0123456789ab"), (str% "v1", str% "89abcdef0123")] := by decide +kernel

/-- C62 (finding): `refs/heads/` is removed anywhere, so a branch called `a/refs/heads/b` is listed as `a/b`. -/
theorem C62_false_nested : parseBranches (str% "0123456789abcdef0123456789abcdef01234567\trefs/heads/a/refs/heads/b\n")
    = .ok [(str% "a/b", str% "0123456789ab")] := by decide +kernel

/-- C62 (finding): a reference called `refs/heads/refs/heads/` would make the handler panic (git does not allow this name). -/
theorem C62_panic_nested : parseBranches (str% "0123456789abcdef0123456789abcdef01234567\trefs/heads/refs/heads/\n") = .panic := by decide +kernel

/-- The hypotheses of `C62_well_formed` are met. -/
example : Ref.WellFormed ⟨str% "0123456789abcdef", true, str% "v1"⟩ ∧ Ref.Plain ⟨str% "0123456789abcdef", true, str% "v1"⟩ := by
  refine ⟨⟨⟨by decide, by decide⟩, by decide, by decide⟩, ?_, ?_⟩ <;> · rintro ⟨a, b, h⟩; have := congrArg List.length h; simp at this; omega
/-- A line without a reference. -/
example : parseBranches (str% "0123456789abcdef0123456789abcdef01234567\n") = .panic := by decide +kernel
example : parseBranches (str% "0123456789a\trefs/heads/x\n") = .panic := by decide +kernel

end Swc
