/-
The reader of `Verif.Model.RustText` reads every layout of a list of tokens as that list, and matches the brackets of token trees.
-/
import Verif.Spec.RustGrammar

namespace Swc

open Spec RustText

/-! ### Characters -/

theorem wordChar_iff {c : Char} : wordChar c = true ↔ WordChar c := by
  simp [wordChar, WordChar, Char.isAlphanum, or_assoc]

theorem identStart_iff {c : Char} : identStart c = true ↔ c.isAlpha = true ∨ c = '_' := by
  simp [identStart]

theorem identStart_not_blank {c : Char} (h : identStart c = true) : blank c = false := by
  rw [Bool.eq_false_iff]
  intro hb
  simp only [blank, Bool.or_eq_true, beq_iff_eq] at hb
  rcases hb with ((rfl | rfl) | rfl) | rfl <;> exact absurd h (by decide)

theorem digit_not_blank {c : Char} (h : c.isDigit = true) : blank c = false := by
  rw [Bool.eq_false_iff]
  intro hb
  simp only [blank, Bool.or_eq_true, beq_iff_eq] at hb
  rcases hb with ((rfl | rfl) | rfl) | rfl <;> exact absurd h (by decide)

theorem digit_not_identStart {c : Char} (h : c.isDigit = true) : identStart c = false := by
  rw [Bool.eq_false_iff]
  intro hi
  rcases identStart_iff.1 hi with ha | rfl
  · simp only [Char.isDigit, Char.isAlpha, Char.isUpper, Char.isLower, Bool.and_eq_true, Bool.or_eq_true, decide_eq_true_eq, ge_iff_le] at h ha
    have h2 := UInt32.le_iff_toNat_le.1 h.2
    have h2' : c.val.toNat ≤ 57 := h2
    rcases ha with ha | ha
    · have := UInt32.le_iff_toNat_le.1 ha.1
      have : 65 ≤ c.val.toNat := this
      omega
    · have := UInt32.le_iff_toNat_le.1 ha.1
      have : 97 ≤ c.val.toNat := this
      omega
  · exact absurd h (by decide)

theorem takeWhile_append_stop {p : Char → Bool} {a r : Str} (ha : ∀ c ∈ a, p c = true) (hr : ∀ c r', r = c :: r' → p c = false) :
    (a ++ r).takeWhile p = a := by
  induction a with
  | nil =>
    cases r with
    | nil => rfl
    | cons c r' => simp [hr c r' rfl]
  | cons c a ih =>
    have := ih (fun d hd => ha d (List.mem_cons_of_mem _ hd))
    simp [ha c (List.mem_cons_self ..), this]

theorem dropWhile_append_stop {p : Char → Bool} {a r : Str} (ha : ∀ c ∈ a, p c = true) (hr : ∀ c r', r = c :: r' → p c = false) :
    (a ++ r).dropWhile p = r := by
  induction a with
  | nil =>
    cases r with
    | nil => rfl
    | cons c r' => simp [hr c r' rfl]
  | cons c a ih =>
    have := ih (fun d hd => ha d (List.mem_cons_of_mem _ hd))
    simp [ha c (List.mem_cons_self ..), this]

/-! ### White space and comments -/

theorem lexN_nil (n : Nat) : lexN n [] = some [] := by cases n <;> rfl

theorem lexN_cons {n : Nat} {c : Char} {s r : Str} {t : List RTok} (h : lexStep c s = some (t, r)) :
    lexN (n + 1) (c :: s) = (lexN n r).map (fun ts => t ++ ts) := by
  rw [lexN, h]
  show (lexN n r >>= fun ts => some (t ++ ts)) = _
  cases lexN n r <;> rfl

theorem lexN_white {n : Nat} {c : Char} {s : Str} (h : c = ' ' ∨ c = '\t' ∨ c = '\n' ∨ c = '\r') : lexN (n + 1) (c :: s) = lexN n s := by
  have : lexStep c s = some ([], s) := by
    rcases h with rfl | rfl | rfl | rfl <;> rfl
  rw [lexN_cons this]
  cases lexN n s <;> simp

theorem lineComment_plain {t : Str} (h : PlainComment t) : lineComment t = [] := by
  cases t with
  | nil => rfl
  | cons c r =>
    obtain ⟨h1, h2⟩ := h c r rfl
    by_cases hc : c = '/'
    · obtain ⟨r', rfl⟩ := h2 hc
      subst hc; rfl
    · unfold lineComment
      split
      · rename_i heq; exact absurd (List.cons.inj heq).1 hc
      · rename_i heq; exact absurd (List.cons.inj heq).1 hc
      · rename_i heq; exact absurd (List.cons.inj heq).1 h1
      · rfl

theorem lexStep_comment {t r : Str} (hn : '\n' ∉ t) : lexStep '/' ('/' :: (t ++ '\n' :: r)) = some (lineComment t, '\n' :: r) := by
  have h1 : ∀ c ∈ t, (c != '\n') = true := fun c hc => by
    simp only [bne_iff_ne, ne_eq]
    rintro rfl
    exact hn hc
  have h2 : ∀ c r', '\n' :: r = c :: r' → (c != '\n') = false := fun c r' h => by
    cases h; rfl
  have : lexStep '/' ('/' :: (t ++ '\n' :: r)) =
      some (lineComment (line (t ++ '\n' :: r)), (t ++ '\n' :: r).dropWhile (· != '\n')) := rfl
  rw [this, line, takeWhile_append_stop h1 h2, dropWhile_append_stop h1 h2]

theorem commentEnd_text {t : Str} (h : BlockText t) : ∀ (n : Nat) (r : Str), commentEnd n (t ++ '*' :: '/' :: r) = commentEnd n ('*' :: '/' :: r) := by
  induction h with
  | nil => exact fun n r => rfl
  | @char c s h1 h2 _ ih =>
    intro n r
    rw [← ih n r, List.cons_append]
    by_cases hc : c = '/'
    · obtain ⟨d, q, rfl, hd⟩ := h1 hc
      subst hc
      rw [List.cons_append]
      cases n <;> (rw [commentEnd] <;> simp [hd])
    · by_cases hs : c = '*'
      · have h2 := h2 hs
        subst hs
        cases s with
        | nil => cases n <;> rfl
        | cons d q =>
          have hd : d ≠ '/' := fun h => h2 rfl q (by rw [h])
          rw [List.cons_append]
          cases n <;> (rw [commentEnd] <;> simp [hd])
      · cases n <;> (rw [commentEnd] <;> simp [hc, hs])
  | @nested a s _ _ ih1 ih2 =>
    intro n r
    rw [List.cons_append, List.cons_append, List.append_assoc]
    have : commentEnd n ('/' :: '*' :: (a ++ ('*' :: '/' :: s ++ '*' :: '/' :: r))) = commentEnd (n + 1) (a ++ ('*' :: '/' :: s ++ '*' :: '/' :: r)) := by
      cases n <;> rfl
    rw [this, List.cons_append, List.cons_append, ih1]
    show commentEnd n _ = _
    exact ih2 n r

theorem blockDoc_plain {t r : Str} (h : PlainBlock t) : blockDoc (t ++ '*' :: '/' :: r) = false := by
  cases t with
  | nil => rfl
  | cons c q =>
    obtain ⟨h1, h2⟩ := h c q rfl
    by_cases hc : c = '*'
    · rcases h2 hc with rfl | ⟨q', rfl⟩ <;> (subst hc; rfl)
    · rw [List.cons_append]
      unfold blockDoc
      split
      · rename_i heq; exact absurd (List.cons.inj heq).1 h1
      · rfl
      · rfl
      · rename_i heq; exact absurd (List.cons.inj heq).1 hc
      · rfl

theorem lexStep_block (s : Str) : lexStep '/' ('*' :: s) = blockComment s := rfl

theorem blockComment_plain {t r : Str} (ht : BlockText t) (hp : PlainBlock t) : blockComment (t ++ '*' :: '/' :: r) = some ([], r) := by
  rw [blockComment, if_neg (by rw [blockDoc_plain hp]; decide), commentEnd_text ht]
  rfl

theorem blockComment_doc {c : Char} {t r : Str} (ht : BlockText t) (hd : blockDoc (c :: (t ++ '*' :: '/' :: r)) = true) :
    blockComment (c :: (t ++ '*' :: '/' :: r)) = some ([.doc (c = '!') t], r) := by
  rw [blockComment, if_pos hd]
  show (commentEnd 0 (t ++ '*' :: '/' :: r)).map _ = _
  rw [commentEnd_text ht]
  show some ([RTok.doc _ (List.take ((t ++ '*' :: '/' :: r).length - r.length - 2) (t ++ '*' :: '/' :: r))], r) = _
  have : (t ++ '*' :: '/' :: r).length - r.length - 2 = t.length := by simp only [List.length_append, List.length_cons]; omega
  rw [this, List.take_left]
  simp

theorem lexN_blank {b r : Str} (hb : Blank b) {R : Option (List RTok)} (hr : ∀ m, r.length ≤ m → lexN m r = R) :
    ∀ n, (b ++ r).length ≤ n → lexN n (b ++ r) = R := by
  induction hb with
  | nil => exact fun n hn => hr n hn
  | @white c s h _ ih =>
    intro n hn
    cases n with
    | zero => simp at hn
    | succ n =>
      rw [List.cons_append, lexN_white h]
      exact ih n (by simpa using hn)
  | @comment t s hn' hp _ ih =>
    intro n hn
    simp only [List.cons_append, List.append_assoc, List.length_cons, List.length_append] at hn ⊢
    obtain ⟨m, rfl⟩ : ∃ m, n = m + 1 + 1 := ⟨n - 2, by omega⟩
    rw [lexN_cons (lexStep_comment hn'), lineComment_plain hp, lexN_white (.inr (.inr (.inl rfl)))]
    rw [ih m (by simp only [List.length_append]; omega)]
    cases R <;> simp
  | @block t s ht hp _ ih =>
    intro n hn
    simp only [List.cons_append, List.append_assoc, List.length_cons, List.length_append] at hn ⊢
    obtain ⟨m, rfl⟩ : ∃ m, n = m + 1 := ⟨n - 1, by omega⟩
    rw [lexN_cons ((lexStep_block _).trans (blockComment_plain ht hp)), ih m (by simp only [List.length_append]; omega)]
    cases R <;> simp

/-! ### One token -/

theorem numChar_iff {c : Char} : numChar c = true ↔ c.isDigit = true ∨ c = '_' := by
  simp [numChar]

theorem dropWhile_replicate (z : Nat) {d : Str} (h : ∀ c r, d = c :: r → (c == '0') = false) :
    (List.replicate z '0' ++ d).dropWhile (· == '0') = d :=
  dropWhile_append_stop (fun c hc => by simp [(List.mem_replicate.1 hc).2]) h

theorem trimZeros_eq {z : Nat} {d : Str} (h : d = str% "0" ∨ ∃ c r, d = c :: r ∧ c ≠ '0') : trimZeros (List.replicate z '0' ++ d) = d := by
  unfold trimZeros
  rcases h with rfl | ⟨c, r, rfl, hc⟩
  · have : (List.replicate z '0' ++ (str% "0")).dropWhile (· == '0') = [] := by
      have := dropWhile_append_stop (p := (· == '0')) (a := List.replicate z '0' ++ (str% "0")) (r := []) (fun c hc => by
        rcases List.mem_append.1 hc with h | h
        · simp [(List.mem_replicate.1 h).2]
        · rw [List.mem_singleton.1 h]; rfl) (fun c r h => by cases h)
      rwa [List.append_nil] at this
    rw [this]
  · rw [dropWhile_replicate z (fun c' r' h => by cases h; simpa using hc)]

theorem suffix_word {s : Str} (h : s ∈ intSuffixes) : ∀ c ∈ s, wordChar c = true := by
  have : ∀ s ∈ intSuffixes, ∀ c ∈ s, wordChar c = true := by decide
  exact this s h

theorem suffix_start {s : Str} (h : s ∈ intSuffixes) : ∀ c r, s = c :: r → numChar c = false := by
  have : ∀ s ∈ intSuffixes, s = [] ∨ (∃ c, s.head? = some c ∧ numChar c = false) := by
    intro s hs
    simp only [intSuffixes, List.mem_cons, List.not_mem_nil, or_false] at hs
    rcases hs with rfl | rfl | rfl | rfl | rfl | rfl | rfl | rfl | rfl | rfl | rfl | rfl | rfl
    · exact .inl rfl
    all_goals exact .inr ⟨_, rfl, by decide⟩
  intro c r hs
  rcases this s h with h | ⟨d, h1, h2⟩
  · rw [h] at hs; cases hs
  · rw [hs] at h1
    cases h1; exact h2

theorem numberTok_text {d s : Str} (h : IntText d s) : numberTok s = some (.int d) := by
  obtain ⟨t, suffix, z, rfl, h1, _, h3, h4, h5⟩ := h
  have a : ∀ c ∈ t, numChar c = true := fun c hc => numChar_iff.2 (h3 c hc)
  have b := suffix_start h1
  unfold numberTok
  rw [takeWhile_append_stop a b, dropWhile_append_stop a b]
  have : intSuffix suffix = true := by
    unfold intSuffix
    exact decide_eq_true h1
  rw [if_pos this]
  have e : stripUnderscore t = t.filter (· ≠ '_') := rfl
  rw [e, h4, trimZeros_eq h5]

theorem intText_cons {d s : Str} (h : IntText d s) : ∃ c r, s = c :: r ∧ c.isDigit = true ∧ ∀ x ∈ r, wordChar x = true := by
  obtain ⟨t, suffix, z, rfl, h1, ⟨c, r, rfl, hc⟩, h3, _, _⟩ := h
  refine ⟨c, r ++ suffix, rfl, hc, fun x hx => ?_⟩
  rcases List.mem_append.1 hx with h | h
  · rcases h3 x (List.mem_cons_of_mem _ h) with h | rfl
    · exact wordChar_iff.2 (.inr (.inl h))
    · rfl
  · exact suffix_word h1 x h

theorem not_word {s : Str} (h : ∀ c r, s = c :: r → ¬ WordChar c) : ∀ c r, s = c :: r → wordChar c = false :=
  fun c r hs => by
    rw [Bool.eq_false_iff]
    exact fun hw => h c r hs (wordChar_iff.1 hw)

theorem stringEnd_text {t r : Str} (h : StringText t) : stringEnd (t ++ '"' :: r) = some (t ++ ['"'], r) := by
  induction h with
  | nil => rfl
  | @char c t h _ ih =>
    obtain ⟨h1, h2⟩ := h
    rw [List.cons_append]
    unfold stringEnd
    split
    · rename_i heq; cases heq
    · rename_i heq; exact absurd (List.cons.inj heq).1 h1
    · rename_i heq; exact absurd (List.cons.inj heq).1 h2
    · rename_i heq
      cases heq
      rw [ih]; rfl
  | @escape c t _ ih =>
    rw [List.cons_append, List.cons_append, stringEnd, ih]
    rfl

theorem chomp_eq {t : Str} (h : '\r' ∉ t) : chomp t = t := by
  rw [chomp, if_neg]
  intro hl
  exact h (List.mem_of_getLast? hl)

theorem lexStep_spells {t : RTok} {s rest : Str} (ht : SpellsTok t s) (ha : Apart t rest) :
    ∃ c s', s = c :: s' ∧ lexStep c (s' ++ rest) = some ([t], rest) := by
  cases ht with
  | ident h =>
    obtain ⟨c, r, rfl, hc, hr⟩ := h
    refine ⟨c, r, rfl, ?_⟩
    have hi := identStart_iff.2 hc
    have h1 : ∀ d ∈ r, wordChar d = true := fun d hd => wordChar_iff.2 (hr d hd)
    have h2 := not_word (s := rest) fun d r' h => (ha d r' h).1
    unfold lexStep
    rw [if_neg (by rw [identStart_not_blank hi]; decide), if_pos hi]
    unfold lexWord
    rw [takeWhile_append_stop h1 h2, dropWhile_append_stop h1 h2]
    cases rest with
    | nil => rfl
    | cons d r' =>
      obtain ⟨_, a1, a2, a3⟩ := ha d r' rfl
      show (if _ then _ else _) = _
      rw [if_neg (by rintro (h | h | h) <;> contradiction)]
  | int h =>
    obtain ⟨c, r, rfl, hc, hr⟩ := intText_cons h
    refine ⟨c, r, rfl, ?_⟩
    have h2 := not_word (s := rest) fun d r' h => (ha d r' h).1
    unfold lexStep
    rw [if_neg (by rw [digit_not_blank hc]; decide), if_neg (by rw [digit_not_identStart hc]; decide), if_pos hc]
    unfold lexNumber
    rw [takeWhile_append_stop hr h2, dropWhile_append_stop hr h2]
    dsimp only
    rw [numberTok_text h]
    cases rest with
    | nil => rfl
    | cons d r' =>
      by_cases hd : d = '.'
      · subst hd
        obtain ⟨x, r'', rfl, hx⟩ := (ha '.' r' rfl).2 rfl
        have hx' := identStart_iff.2 hx
        have : x.isDigit = false := by
          rw [Bool.eq_false_iff]
          intro hxd
          rw [digit_not_identStart hxd] at hx'
          cases hx'
        show (if _ then _ else if _ then _ else _) = _
        rw [if_neg (by rw [this]; decide), if_pos (.inr hx')]
        rfl
      · show (match d :: r' with
          | '.' :: d :: r => _
          | r => _) = _
        split
        · rename_i heq; exact absurd (List.cons.inj heq).1 hd
        · rfl
  | @string t h =>
    refine ⟨'"', t ++ ['"'], rfl, ?_⟩
    have : lexStep '"' (t ++ ['"'] ++ rest) = (stringEnd (t ++ ['"'] ++ rest)).map (fun p => ([.lit ('"' :: p.1)], p.2)) := by
      show lexOther '"' _ = _
      unfold lexOther
      simp
    rw [this, List.append_assoc, List.singleton_append, stringEnd_text h]
    rfl
  | @float a b hA hB =>
    obtain ⟨c, r, rfl, hc, hr⟩ := hA
    obtain ⟨d, q, rfl, hd, hq⟩ := hB
    refine ⟨c, r ++ '.' :: d :: q, rfl, ?_⟩
    have hr' : ∀ x ∈ r, wordChar x = true := fun x hx => wordChar_iff.2 (hr x hx)
    have hq' : ∀ x ∈ q, wordChar x = true := fun x hx => wordChar_iff.2 (hq x hx)
    have ne : c ≠ '"' := by rintro rfl; exact absurd hc (by decide)
    have ha' : ∀ d r, rest = d :: r → ¬ WordChar d := by
      unfold Apart at ha
      split at ha
      all_goals first
        | (rename_i heq; exact absurd (RTok.lit.inj heq) (fun h => ne (List.cons.inj h).1))
        | (rename_i heq; cases heq)
        | skip
      all_goals first
        | exact ha
        | (rename_i h _ _ _ _ _; exact absurd rfl (h _))
    have h2 := not_word ha'
    have h3 : ∀ x r', '.' :: d :: (q ++ rest) = x :: r' → wordChar x = false := fun x r' h => by
      cases h; decide
    unfold lexStep
    rw [if_neg (by rw [digit_not_blank hc]; decide), if_neg (by rw [digit_not_identStart hc]; decide), if_pos hc]
    unfold lexNumber
    rw [List.append_assoc, List.cons_append, List.cons_append, takeWhile_append_stop hr' h3, dropWhile_append_stop hr' h3]
    show (if _ then _ else _) = _
    rw [if_pos hd, takeWhile_append_stop hq' h2, dropWhile_append_stop hq' h2]
  | @doc t hn hr hs =>
    obtain ⟨r, rfl⟩ := ha
    refine ⟨'/', '/' :: '/' :: t, rfl, ?_⟩
    have := lexStep_comment (t := '/' :: t) (r := r) (by simpa using hn)
    rw [List.cons_append, List.cons_append]
    rw [List.cons_append] at this
    rw [this]
    have : lineComment ('/' :: t) = [.doc false t] := by
      unfold lineComment
      split
      · rename_i heq
        exact absurd (List.cons.inj heq).2 (hs _)
      · rename_i heq
        cases heq
        exact congrArg (fun t => [RTok.doc _ t]) (chomp_eq hr)
      · rename_i heq; exact absurd (List.cons.inj heq).1 (by decide)
      · rename_i h1 h2; exact absurd rfl (h1 _)
    rw [this]
  | @innerDoc t hn hr =>
    obtain ⟨r, rfl⟩ := ha
    refine ⟨'/', '/' :: '!' :: t, rfl, ?_⟩
    have := lexStep_comment (t := '!' :: t) (r := r) (by simpa using hn)
    rw [List.cons_append, List.cons_append]
    rw [List.cons_append] at this
    rw [this]
    have : lineComment ('!' :: t) = [.doc true t] := by
      show [RTok.doc true (chomp t)] = _
      exact congrArg (fun t => [RTok.doc _ t]) (chomp_eq hr)
    rw [this]
  | @blockDoc t ht hr hs =>
    refine ⟨'/', '*' :: '*' :: (t ++ ['*', '/']), rfl, ?_⟩
    have e : '*' :: '*' :: (t ++ ['*', '/']) ++ rest = '*' :: ('*' :: (t ++ '*' :: '/' :: rest)) := by simp
    rw [e, lexStep_block, blockComment_doc ht]
    · rfl
    · obtain ⟨c, r, rfl, h1, h2⟩ := hs
      rw [List.cons_append]
      unfold blockDoc
      split
      · rfl
      · rename_i heq; exact absurd (List.cons.inj (List.cons.inj heq).2).1 h1
      · rename_i heq; exact absurd (List.cons.inj (List.cons.inj heq).2).1 h2
      · rfl
      · rename_i h3; exact absurd rfl (h3 _)
  | @innerBlockDoc t ht hr =>
    refine ⟨'/', '*' :: '!' :: (t ++ ['*', '/']), rfl, ?_⟩
    have e : '*' :: '!' :: (t ++ ['*', '/']) ++ rest = '*' :: ('!' :: (t ++ '*' :: '/' :: rest)) := by simp
    rw [e, lexStep_block, blockComment_doc ht rfl]
    rfl
  | @char c h =>
    refine ⟨'\'', [c, '\''], rfl, ?_⟩
    show lexOther '\'' (c :: '\'' :: rest) = _
    unfold lexOther
    simp [h.1]
  | @lifetime x h =>
    obtain ⟨c, r, rfl, hc, hr⟩ := h
    refine ⟨'\'', c :: r, rfl, ?_⟩
    have hi := identStart_iff.2 hc
    have h1 : ∀ d ∈ r, wordChar d = true := fun d hd => wordChar_iff.2 (hr d hd)
    have h2 := not_word (s := rest) fun d r' h => (ha d r' h).1
    have h3 : (r ++ rest).head? ≠ some '\'' := by
      cases r with
      | nil =>
        cases rest with
        | nil => simp
        | cons d r' =>
          have := (ha d r' rfl).2
          simpa using this
      | cons d r' =>
        have : d ≠ '\'' := by rintro rfl; exact absurd (h1 '\'' (List.mem_cons_self ..)) (by decide)
        simpa using this
    show lexOther '\'' (c :: (r ++ rest)) = _
    unfold lexOther
    rw [if_neg (fun h => absurd h.1 (by decide)), if_neg (fun h => absurd h.1 (by decide)), if_neg (fun h => absurd h.1 (by decide)), if_neg (fun h => absurd h.1 (by decide)),
      if_neg (fun h => absurd h.1 (by decide)), if_neg (by decide), if_pos rfl]
    show (if _ then _ else if _ then _ else _) = _
    rw [if_neg (fun h => h3 h.2), if_pos hi, takeWhile_append_stop h1 h2, dropWhile_append_stop h1 h2]
  | @sym y h =>
    cases y with
    | path => exact ⟨_, _, rfl, rfl⟩
    | arrow => exact ⟨_, _, rfl, rfl⟩
    | fatArrow => exact ⟨_, _, rfl, rfl⟩
    | colon =>
      refine ⟨':', [], rfl, ?_⟩
      cases rest with
      | nil => rfl
      | cons d r =>
        have hd : d ≠ ':' := by rintro rfl; exact ha r rfl
        show lexOther ':' (d :: r) = _
        unfold lexOther
        simp [hd, punct]
    | eq =>
      refine ⟨'=', [], rfl, ?_⟩
      cases rest with
      | nil => rfl
      | cons d r =>
        have hd : d ≠ '>' := by rintro rfl; exact ha r rfl
        show lexOther '=' (d :: r) = _
        unfold lexOther
        simp [hd, punct]
    | other c =>
      have hc := h c rfl
      refine ⟨c, [], rfl, ?_⟩
      obtain ⟨h1, h2⟩ := ha
      simp only [List.mem_cons, List.not_mem_nil, or_false] at hc
      rcases hc with rfl | rfl | rfl | rfl | rfl | rfl | rfl | rfl
      all_goals first
        | (cases rest <;> rfl)
        | skip
      · cases rest with
        | nil => rfl
        | cons d r =>
          have hd : d ≠ '>' := by rintro rfl; exact h1 rfl r rfl
          show lexOther '-' (d :: r) = _
          unfold lexOther
          simp [hd, punct]
      · cases rest with
        | nil => rfl
        | cons d r =>
          have hd : d ≠ '/' := by rintro rfl; exact (h2 rfl).1 r rfl
          have hd' : d ≠ '*' := by rintro rfl; exact (h2 rfl).2 r rfl
          show lexOther '/' (d :: r) = _
          unfold lexOther
          simp [hd, hd', punct]
    | _ => refine ⟨_, _, rfl, ?_⟩; cases rest <;> rfl
  | @opn d => cases d <;> exact ⟨_, _, rfl, rfl⟩
  | @cls d => cases d <;> exact ⟨_, _, rfl, rfl⟩

theorem lexN_layout {ts : List RTok} {s : Str} (h : Layout ts s) : ∀ n, s.length ≤ n → lexN n s = some ts := by
  induction h with
  | nil h =>
    intro n hn
    have := lexN_blank h (r := []) (R := some []) (fun m _ => lexN_nil m) n (by simpa using hn)
    simpa using this
  | @cons t ts gap s rest hb ht ha _ ih =>
    intro n hn
    rw [List.append_assoc] at hn ⊢
    refine lexN_blank hb (fun m hm => ?_) n hn
    obtain ⟨c, s', rfl, hs⟩ := lexStep_spells ht ha
    rw [List.cons_append] at hm ⊢
    cases m with
    | zero => simp at hm
    | succ m =>
      rw [lexN_cons hs, ih m (by simp at hm; omega)]
      rfl

/-- Every layout of a list of tokens is read as that list. -/
theorem lex_layout {ts : List RTok} {s : Str} (h : Layout ts s) : lex s = some ts := lexN_layout h _ (Nat.le_refl _)

/-! ### Brackets -/

theorem treesGo_leaf {t : RTok} (h : properTree (.tok t) = true) (r : List RTok) (cur : List RTree) (st : List (Delim × List RTree)) :
    treesGo (t :: r) cur st = treesGo r (.tok t :: cur) st := by
  cases t <;> first | rfl | (simp [properTree] at h)

mutual

theorem treesGo_tree (t : RTree) (h : properTree t = true) (r : List RTok) (cur : List RTree) (st : List (Delim × List RTree)) :
    treesGo (toksOfTree t ++ r) cur st = treesGo r (t :: cur) st := by
  cases t with
  | tok t => exact treesGo_leaf h r cur st
  | group d ts =>
    rw [toksOfTree, List.cons_append, List.append_assoc]
    show treesGo (toksOf ts ++ ([.cls d] ++ r)) [] ((d, cur) :: st) = _
    rw [treesGo_list ts (by simpa [properTree] using h)]
    show (if d = d then _ else _) = _
    simp

theorem treesGo_list (ts : List RTree) (h : proper ts = true) (r : List RTok) (cur : List RTree) (st : List (Delim × List RTree)) :
    treesGo (toksOf ts ++ r) cur st = treesGo r (ts.reverse ++ cur) st := by
  cases ts with
  | nil => rfl
  | cons t ts =>
    rw [proper, Bool.and_eq_true] at h
    rw [toksOf, List.append_assoc, treesGo_tree t h.1, treesGo_list ts h.2]
    simp

end

/-- The brackets of token trees are matched. -/
theorem trees_toksOf {ts : List RTree} (h : proper ts = true) : trees (toksOf ts) = some ts := by
  have := treesGo_list ts h [] [] []
  rw [List.append_nil] at this
  rw [trees, this]
  simp [treesGo]

end Swc
