/-
The parser for command lines reads exactly what is written.
-/
import Verif.Spec.CommandLine

namespace Swc

open Spec

/-- The table of a command fits the definitions for `clap`. -/
structure Fits (specs : List ArgSpec) (A : Arguments) : Prop where
  flags : A.flags = (specs.filter (·.takes = .none)).map ArgSpec.long
  values : ∀ n s, (n, s) ∈ A.values ↔ ∃ a ∈ specs, a.takes = .one ∧ a.long = n ∧ s ∈ a.long :: a.aliases
  letters : A.letters = specs.filterMap fun a => a.short.map fun c => (a.long, c)
  lists : A.lists = (specs.filter (·.takes = .many)).map ArgSpec.long
  nodup : (specs.flatMap fun a => a.long :: a.aliases).Nodup
  nodupShort : (specs.filterMap ArgSpec.short).Nodup
  aliases : ∀ a ∈ specs, a.takes ≠ .one → a.aliases = []
  short : ∀ a ∈ specs, a.short.isSome → a.takes = .one
  names : ∀ a ∈ specs, ∀ n ∈ a.long :: a.aliases, '=' ∉ n ∧ n ≠ []
  dash : ∀ a ∈ specs, a.short ≠ some '-'

theorem splitEq_plain {s : Str} (h : '=' ∉ s) : splitEq s = (s, none) := by
  unfold splitEq
  have : s.dropWhile (· ≠ '=') = [] := by
    have := List.dropWhile_append_of_pos (p := fun c => decide (c ≠ '=')) (l₁ := s) (l₂ := []) (by
      intro c hc
      simp only [decide_eq_true_eq]
      rintro rfl
      exact h hc)
    simpa using this
  rw [this]

theorem splitEq_eq {s v : Str} (h : '=' ∉ s) : splitEq (s ++ '=' :: v) = (s, some v) := by
  unfold splitEq
  have h1 : (s ++ '=' :: v).dropWhile (· ≠ '=') = '=' :: v := by
    rw [List.dropWhile_append_of_pos]
    · simp
    · intro c hc
      simp only [decide_eq_true_eq]
      rintro rfl
      exact h hc
  have h2 : (s ++ '=' :: v).takeWhile (· ≠ '=') = s := by
    rw [List.takeWhile_append_of_pos]
    · simp
    · intro c hc
      simp only [decide_eq_true_eq]
      rintro rfl
      exact h hc
  rw [h1, h2]

theorem first_eq {s : Str} (h : '=' ∈ s) : ∃ a v, s = a ++ '=' :: v ∧ '=' ∉ a := by
  induction s with
  | nil => cases h
  | cons c s ih =>
    by_cases hc : c = '='
    · exact ⟨[], s, by rw [hc]; rfl, by simp⟩
    · obtain ⟨a, v, e, ha⟩ := ih (by
        rcases List.mem_cons.1 h with h | h
        · exact absurd h.symm hc
        · exact h)
      exact ⟨c :: a, v, by rw [e]; rfl, by
        rw [List.mem_cons]
        rintro (h | h)
        · exact hc h.symm
        · exact ha h⟩

/-- A text is a name, alone or with an attached value. -/
theorem splitEq_cases (s : Str) : ((splitEq s).2 = none ∧ s = (splitEq s).1 ∧ '=' ∉ s) ∨
    ∃ v, (splitEq s).2 = some v ∧ s = (splitEq s).1 ++ '=' :: v := by
  by_cases h : '=' ∈ s
  · right
    obtain ⟨a, v, rfl, ha⟩ := first_eq h
    rw [splitEq_eq ha]
    exact ⟨v, rfl, rfl⟩
  · left
    rw [splitEq_plain h]
    exact ⟨rfl, rfl, h⟩

section
variable {specs : List ArgSpec} {A : Arguments}

/-- Which argument a name belongs to. -/
theorem find_long (hf : Fits specs A) (n : Str) (a : ArgSpec) :
    specs.find? (fun a => a.long == n || a.aliases.contains n) = some a ↔ a ∈ specs ∧ n ∈ a.long :: a.aliases := by
  have key : ∀ (l : List ArgSpec), (l.flatMap fun a => a.long :: a.aliases).Nodup →
      (l.find? (fun a => a.long == n || a.aliases.contains n) = some a ↔ a ∈ l ∧ n ∈ a.long :: a.aliases) := by
    intro l
    induction l with
    | nil => intro _; simp
    | cons x l ih =>
      intro hn
      rw [List.flatMap_cons, List.nodup_append] at hn
      rw [List.find?_cons]
      by_cases hx : n ∈ x.long :: x.aliases
      · have : (x.long == n || x.aliases.contains n) = true := by
          rw [Bool.or_eq_true, beq_iff_eq, List.contains_iff_mem]
          rcases List.mem_cons.1 hx with h | h
          · exact .inl h.symm
          · exact .inr h
        rw [this]
        constructor
        · intro h
          cases h
          exact ⟨List.mem_cons_self, hx⟩
        · rintro ⟨ha, hna⟩
          rcases List.mem_cons.1 ha with rfl | ha
          · rfl
          · exact absurd rfl (hn.2.2 n hx n (List.mem_flatMap.2 ⟨a, ha, hna⟩))
      · have : (x.long == n || x.aliases.contains n) = false := by
          rw [Bool.eq_false_iff]
          intro h
          rw [Bool.or_eq_true, beq_iff_eq, List.contains_iff_mem] at h
          exact hx (List.mem_cons.2 (h.imp Eq.symm id))
        rw [this, ih hn.2.1]
        constructor
        · rintro ⟨ha, hna⟩
          exact ⟨List.mem_cons_of_mem _ ha, hna⟩
        · rintro ⟨ha, hna⟩
          rcases List.mem_cons.1 ha with rfl | ha
          · exact absurd hna hx
          · exact ⟨ha, hna⟩
  exact key specs hf.nodup

/-- Which argument a letter belongs to. -/
theorem find_short (hf : Fits specs A) (c : Char) (a : ArgSpec) :
    specs.find? (fun a => a.short == some c) = some a ↔ a ∈ specs ∧ a.short = some c := by
  have key : ∀ (l : List ArgSpec), (l.filterMap ArgSpec.short).Nodup →
      (l.find? (fun a => a.short == some c) = some a ↔ a ∈ l ∧ a.short = some c) := by
    intro l
    induction l with
    | nil => intro _; simp
    | cons x l ih =>
      intro hn
      rw [List.find?_cons]
      by_cases hx : x.short = some c
      · rw [show (x.short == some c) = true from beq_iff_eq.2 hx]
        rw [List.filterMap_cons_some hx, List.nodup_cons] at hn
        constructor
        · intro h
          cases h
          exact ⟨List.mem_cons_self, hx⟩
        · rintro ⟨ha, hna⟩
          rcases List.mem_cons.1 ha with rfl | ha
          · rfl
          · exact absurd (List.mem_filterMap.2 ⟨a, ha, hna⟩) hn.1
      · rw [show (x.short == some c) = false from Bool.eq_false_iff.2 fun h => hx (beq_iff_eq.1 h)]
        have hn' : (l.filterMap ArgSpec.short).Nodup := by
          cases hs : x.short with
          | none => rwa [List.filterMap_cons_none hs] at hn
          | some d =>
            rw [List.filterMap_cons_some hs, List.nodup_cons] at hn
            exact hn.2
        show List.find? _ l = some a ↔ _
        rw [ih hn']
        constructor
        · rintro ⟨ha, hna⟩
          exact ⟨List.mem_cons_of_mem _ ha, hna⟩
        · rintro ⟨ha, hna⟩
          rcases List.mem_cons.1 ha with rfl | ha
          · exact absurd hna hx
          · exact ⟨ha, hna⟩
  exact key specs hf.nodupShort

/-! ### One word -/

theorem scan_escape (o ws) : scanArgs specs o (str% "--" :: ws) = (closeArg o).map fun l => (l, ws) := by
  rw [scanArgs.eq_def]
  rfl

theorem scan_long {s : Str} (hs : s ≠ []) (o ws) : scanArgs specs o (('-' :: '-' :: s) :: ws) =
    match specs.find? (fun a => a.long == (splitEq s).1 || a.aliases.contains (splitEq s).1) with
    | none => none
    | some a => (closeArg o).bind fun l =>
      match (splitEq s).2 with
      | none =>
        if a.takes = .none then (scanArgs specs none ws).map fun r => (l ++ (a.long, []) :: r.1, r.2)
        else (scanArgs specs (some (a, [])) ws).map fun r => (l ++ r.1, r.2)
      | some v => if a.takes = .none then none else (scanArgs specs none ws).map fun r => (l ++ (a.long, [v]) :: r.1, r.2) := by
  cases s with
  | nil => exact absurd rfl hs
  | cons c s =>
    rw [scanArgs.eq_def]
    simp only
    generalize List.find? _ specs = r
    cases r with
    | none => rfl
    | some a =>
      cases closeArg o with
      | none => rfl
      | some l =>
        simp only [Option.bind_eq_bind, Option.bind_some]
        generalize (splitEq (c :: s)).2 = e
        cases e with
        | none => by_cases ht : a.takes = .none <;> (simp only [ht, if_true, if_false, Option.map_eq_bind]; rfl)
        | some v =>
          by_cases ht : a.takes = .none
          · simp only [ht, if_true]
          · simp only [ht, if_false, Option.map_eq_bind]; rfl

theorem scan_short {c : Char} (hc : c ≠ '-') (s o ws) : scanArgs specs o (('-' :: c :: s) :: ws) =
    match specs.find? (fun a => a.short == some c) with
    | none => none
    | some a => (closeArg o).bind fun l =>
      match s with
      | [] => (scanArgs specs (some (a, [])) ws).map fun r => (l ++ r.1, r.2)
      | '=' :: v => (scanArgs specs none ws).map fun r => (l ++ (a.long, [v]) :: r.1, r.2)
      | v => (scanArgs specs none ws).map fun r => (l ++ (a.long, [v]) :: r.1, r.2) := by
  rw [scanArgs.eq_def]
  simp only
  split
  · rename_i h
    simp only [List.cons.injEq] at h
    exact absurd h.2.1 hc
  · rename_i h
    simp only [List.cons.injEq] at h
    exact absurd h.2.1 hc
  · rename_i h
    simp only [List.cons.injEq] at h
    obtain ⟨-, rfl, rfl⟩ := h
    generalize List.find? _ specs = r
    cases r with
    | none => rfl
    | some a =>
      cases closeArg o with
      | none => rfl
      | some l =>
        simp only [Option.bind_eq_bind, Option.bind_some]
        split <;> (simp only [Option.map_eq_bind]; rfl)
  · rename_i h
    exact (h _ _ rfl).elim

theorem scan_word {w : Str} (hw : ¬ Dashed w) (o ws) : scanArgs specs o (w :: ws) =
    match o with
    | some (a, vs) =>
      if a.takes = .many then scanArgs specs (some (a, vs ++ [w])) ws
      else (scanArgs specs none ws).map fun r => ((a.long, vs ++ [w]) :: r.1, r.2)
    | none => (scanArgs specs none ws).map fun r => (r.1, w :: r.2) := by
  rw [scanArgs.eq_def]
  simp only
  split
  · exact absurd ⟨_, _, rfl⟩ hw
  · exact absurd ⟨_, _, rfl⟩ hw
  · exact absurd ⟨_, _, rfl⟩ hw
  · cases o with
    | none => simp only [Option.map_eq_bind]; rfl
    | some p =>
      obtain ⟨a, vs⟩ := p
      by_cases ht : a.takes = .many
      · simp only [ht, if_true]
      · simp only [ht, if_false, Option.map_eq_bind]; rfl

theorem scan_nil (o) : scanArgs specs o [] = (closeArg o).map fun l => (l, []) := by
  rw [scanArgs.eq_def]

/-- An option, and the end, close the argument that is open. -/
theorem scan_close {ws : List Str} (hw : ∀ w, ws.head? = some w → Dashed w) (o) :
    scanArgs specs o ws = (closeArg o).bind fun l => (scanArgs specs none ws).map fun r => (l ++ r.1, r.2) := by
  cases ws with
  | nil =>
    rw [scan_nil, scan_nil]
    cases closeArg o with
    | none => rfl
    | some l => simp [closeArg]
  | cons w ws =>
    obtain ⟨c, r, rfl⟩ := hw w rfl
    by_cases hc : c = '-'
    · subst hc
      cases r with
      | nil =>
        have := scan_escape (specs := specs) o ws
        have h0 := scan_escape (specs := specs) none ws
        rw [show str% "--" = ['-', '-'] from rfl] at this h0
        rw [this, h0]
        cases closeArg o with
        | none => rfl
        | some l => simp [closeArg]
      | cons d r =>
        rw [scan_long (by simp), scan_long (by simp)]
        generalize List.find? _ specs = f
        cases f with
        | none => cases closeArg o <;> rfl
        | some a =>
          cases closeArg o with
          | none => rfl
          | some l =>
            simp only [closeArg, Option.bind_some]
            generalize (splitEq (d :: r)).2 = e
            cases e with
            | none => by_cases ht : a.takes = .none <;> simp [ht, Option.map_map, Function.comp_def]
            | some v => by_cases ht : a.takes = .none <;> simp [ht, Option.map_map, Function.comp_def]
    · rw [scan_short hc, scan_short hc]
      generalize List.find? _ specs = f
      cases f with
      | none => cases closeArg o <;> rfl
      | some a =>
        cases closeArg o with
        | none => rfl
        | some l =>
          simp only [closeArg, Option.bind_some]
          split <;> simp [Option.map_map, Function.comp_def]

/-- The values of a list. -/
theorem scan_many {a : ArgSpec} (ha : a.takes = .many) (vs us ts : List Str) (hu : ∀ u ∈ us, ¬ Dashed u) :
    scanArgs specs (some (a, vs)) (us ++ ts) = scanArgs specs (some (a, vs ++ us)) ts := by
  induction us generalizing vs with
  | nil => simp
  | cons u us ih =>
    rw [List.cons_append, scan_word (hu u List.mem_cons_self)]
    simp only [ha, if_true]
    rw [ih _ (fun x hx => hu x (List.mem_cons_of_mem _ hx))]
    simp

theorem not_none_one {t : Takes} (h : ¬ t = .none) (h' : ¬ t = .one) : t = .many := by
  cases t
  · exact absurd rfl h
  · exact absurd rfl h'
  · rfl

theorem takes_many_close {a : ArgSpec} (ha : a.takes = .many) (vs : List Str) : closeArg (some (a, vs)) = some [(a.long, vs)] := by
  simp [closeArg, ha]

/-- A list of words begins with values and ends, or goes on with an option. -/
theorem values_prefix (ws : List Str) : ∃ us ts, ws = us ++ ts ∧ (∀ u ∈ us, ¬ Dashed u) ∧ ∀ w, ts.head? = some w → Dashed w := by
  induction ws with
  | nil => exact ⟨[], [], rfl, (fun _ h => by cases h), (fun _ h => by cases h)⟩
  | cons w ws ih =>
    by_cases hw : Dashed w
    · exact ⟨[], w :: ws, rfl, (fun _ h => by cases h), fun x hx => by cases hx; exact hw⟩
    · obtain ⟨us, ts, rfl, h1, h2⟩ := ih
      exact ⟨w :: us, ts, rfl, fun u hu => by
        rcases List.mem_cons.1 hu with rfl | hu
        · exact hw
        · exact h1 u hu, h2⟩

/-- What the parser sees of what is given. -/
def occurs (g : List Given) : List (Str × List Str) := g.filterMap fun
  | .flag n => some (n, [])
  | .value n v => some (n, [v])
  | .values n vs => some (n, vs)
  | .word _ => none

theorem occurs_words (vs : List Str) : occurs (vs.map .word) = [] ∧ words (vs.map .word) = vs := by
  induction vs with
  | nil => exact ⟨rfl, rfl⟩
  | cons v vs ih => exact ⟨ih.1, by
    show v :: words (vs.map .word) = v :: vs
    rw [ih.2]⟩

theorem mem_flags (hf : Fits specs A) {n : Str} : n ∈ A.flags ↔ ∃ a ∈ specs, a.takes = .none ∧ a.long = n := by
  rw [hf.flags]
  simp [and_assoc]

theorem mem_lists (hf : Fits specs A) {n : Str} : n ∈ A.lists ↔ ∃ a ∈ specs, a.takes = .many ∧ a.long = n := by
  rw [hf.lists]
  simp [and_assoc]

theorem mem_letters (hf : Fits specs A) {n : Str} {c : Char} : (n, c) ∈ A.letters ↔ ∃ a ∈ specs, a.short = some c ∧ a.long = n := by
  rw [hf.letters, List.mem_filterMap]
  constructor
  · rintro ⟨a, ha, h⟩
    rw [Option.map_eq_some_iff] at h
    obtain ⟨d, hd, h⟩ := h
    cases h
    exact ⟨a, ha, hd, rfl⟩
  · rintro ⟨a, ha, hd, rfl⟩
    exact ⟨a, ha, by rw [hd]; rfl⟩

/-- Everything that is written in one of the ways is understood. -/
theorem scan_of_written (hf : Fits specs A) {g : List Given} {ws : List Str} (h : Written A g ws) :
    scanArgs specs none ws = some (occurs g, words g) := by
  induction h with
  | done => rw [scan_nil]; rfl
  | @flag n g ws hn _ ih =>
    obtain ⟨a, ha, ht, rfl⟩ := (mem_flags hf).1 hn
    obtain ⟨he, hne⟩ := hf.names a ha _ List.mem_cons_self
    show scanArgs specs none (('-' :: '-' :: a.long) :: ws) = _
    rw [scan_long hne, splitEq_plain he]
    simp only
    rw [(find_long hf a.long a).2 ⟨ha, List.mem_cons_self⟩]
    simp only [closeArg, Option.bind_some, ht, if_true]
    rw [ih]
    rfl
  | @value n s v g ws hn hv _ ih =>
    obtain ⟨a, ha, ht, rfl, hs⟩ := (hf.values n s).1 hn
    obtain ⟨he, hne⟩ := hf.names a ha _ hs
    show scanArgs specs none (('-' :: '-' :: s) :: v :: ws) = _
    rw [scan_long hne, splitEq_plain he]
    simp only
    rw [(find_long hf s a).2 ⟨ha, hs⟩]
    simp only [closeArg, Option.bind_some, ht, reduceCtorEq, if_false]
    rw [scan_word hv]
    simp only [ht, reduceCtorEq, if_false]
    rw [ih]
    rfl
  | @valueEq n s v g ws hn _ ih =>
    obtain ⟨a, ha, ht, rfl, hs⟩ := (hf.values n s).1 hn
    obtain ⟨he, hne⟩ := hf.names a ha _ hs
    show scanArgs specs none (('-' :: '-' :: (s ++ '=' :: v)) :: ws) = _
    rw [scan_long (by simp), splitEq_eq he]
    simp only
    rw [(find_long hf s a).2 ⟨ha, hs⟩]
    simp only [closeArg, Option.bind_some, ht, reduceCtorEq, if_false]
    rw [ih]
    rfl
  | @letter n c v g ws hn hv _ ih =>
    obtain ⟨a, ha, hc, rfl⟩ := (mem_letters hf).1 hn
    have ht := hf.short a ha (by rw [hc]; rfl)
    rw [scan_short (fun h => hf.dash a ha (by rw [hc, h])), (find_short hf c a).2 ⟨ha, hc⟩]
    simp only [closeArg, Option.bind_some]
    rw [scan_word hv]
    simp only [ht, reduceCtorEq, if_false]
    rw [ih]
    rfl
  | @letterEq n c v g ws hn _ ih =>
    obtain ⟨a, ha, hc, rfl⟩ := (mem_letters hf).1 hn
    rw [scan_short (fun h => hf.dash a ha (by rw [hc, h])), (find_short hf c a).2 ⟨ha, hc⟩]
    simp only [closeArg, Option.bind_some]
    rw [ih]
    rfl
  | @letterJoined n c v g ws hn hv hv' _ ih =>
    obtain ⟨a, ha, hc, rfl⟩ := (mem_letters hf).1 hn
    rw [scan_short (fun h => hf.dash a ha (by rw [hc, h])), (find_short hf c a).2 ⟨ha, hc⟩]
    simp only [closeArg, Option.bind_some]
    split
    · exact absurd rfl hv
    · exact absurd rfl hv'
    · rw [ih]
      rfl
  | @values n vs g ws hn hvs hws _ ih =>
    obtain ⟨a, ha, ht, rfl⟩ := (mem_lists hf).1 hn
    obtain ⟨he, hne⟩ := hf.names a ha _ List.mem_cons_self
    show scanArgs specs none (('-' :: '-' :: a.long) :: (vs ++ ws)) = _
    rw [scan_long hne, splitEq_plain he]
    simp only
    rw [(find_long hf a.long a).2 ⟨ha, List.mem_cons_self⟩]
    simp only [closeArg, Option.bind_some, ht, reduceCtorEq, if_false]
    rw [scan_many ht _ _ _ hvs, scan_close hws, takes_many_close ht, ih]
    rfl
  | @valuesEq n v g ws hn _ ih =>
    obtain ⟨a, ha, ht, rfl⟩ := (mem_lists hf).1 hn
    obtain ⟨he, hne⟩ := hf.names a ha _ List.mem_cons_self
    show scanArgs specs none (('-' :: '-' :: (a.long ++ '=' :: v)) :: ws) = _
    rw [scan_long (by simp), splitEq_eq he]
    simp only
    rw [(find_long hf a.long a).2 ⟨ha, List.mem_cons_self⟩]
    simp only [closeArg, Option.bind_some, ht, reduceCtorEq, if_false]
    rw [ih]
    rfl
  | @word v g ws hv _ ih =>
    rw [scan_word hv, ih]
    rfl
  | @rest vs =>
    rw [scan_escape, (occurs_words vs).1, (occurs_words vs).2]
    rfl

/-- Everything that is understood is written in one of the ways. -/
theorem written_of_scan (hf : Fits specs A) (n : Nat) : ∀ (ws : List Str) (l : List (Str × List Str)) (ps : List Str), ws.length ≤ n →
    scanArgs specs none ws = some (l, ps) → ∃ g, Written A g ws ∧ l = occurs g ∧ ps = words g := by
  induction n with
  | zero =>
    intro ws l ps hn h
    cases ws with
    | nil =>
      rw [scan_nil] at h
      cases h
      exact ⟨[], .done, rfl, rfl⟩
    | cons w ws => simp at hn
  | succ n ih =>
    intro ws l ps hn h
    cases ws with
    | nil =>
      rw [scan_nil] at h
      cases h
      exact ⟨[], .done, rfl, rfl⟩
    | cons w ws =>
      have hn : ws.length ≤ n := by simpa using hn
      -- the rest, after an argument that needs one value
      have one : ∀ (a : ArgSpec) (l : List (Str × List Str)) (ps : List Str), a.takes = .one → scanArgs specs (some (a, [])) ws = some (l, ps) →
          ∃ v ts g, ws = v :: ts ∧ ¬ Dashed v ∧ Written A g ts ∧ l = (a.long, [v]) :: occurs g ∧ ps = words g := by
        intro a l ps ht h
        cases ws with
        | nil => rw [scan_nil] at h; simp [closeArg, ht] at h
        | cons v ts =>
          by_cases hv : Dashed v
          · rw [scan_close (fun w hw => by cases hw; exact hv)] at h
            simp [closeArg, ht] at h
          · rw [scan_word hv] at h
            simp only [ht, reduceCtorEq, if_false, Option.map_eq_some_iff] at h
            obtain ⟨⟨l', ps'⟩, h, e⟩ := h
            cases e
            obtain ⟨g, hg, rfl, rfl⟩ := ih ts l' ps' (by simp at hn; omega) h
            exact ⟨v, ts, g, rfl, hv, hg, rfl, rfl⟩
      have plain : ∀ (l : List (Str × List Str)) (ps : List Str), scanArgs specs none ws = some (l, ps) →
          ∃ g, Written A g ws ∧ l = occurs g ∧ ps = words g := fun l ps h => ih ws l ps hn h
      by_cases hw : Dashed w
      · obtain ⟨c, r, rfl⟩ := hw
        by_cases hc : c = '-'
        · subst hc
          cases r with
          | nil =>
            have := scan_escape (specs := specs) none ws
            rw [show str% "--" = ['-', '-'] from rfl] at this
            rw [this] at h
            obtain ⟨rfl, rfl⟩ : [] = l ∧ ws = ps := by simpa [closeArg] using h
            exact ⟨ws.map .word, .rest, (occurs_words ws).1.symm, (occurs_words ws).2.symm⟩
          | cons d r =>
            rw [scan_long (by simp)] at h
            have hsplit := splitEq_cases (d :: r)
            generalize hs : d :: r = s at *
            cases hfind : specs.find? (fun a => a.long == (splitEq s).1 || a.aliases.contains (splitEq s).1) with
            | none => rw [hfind] at h; cases h
            | some a =>
              rw [hfind] at h
              obtain ⟨ha, hna⟩ := (find_long hf _ _).1 hfind
              simp only [closeArg, Option.bind_some] at h
              rcases hsplit with ⟨h1, h2, -⟩ | ⟨v, h1, h2⟩
              · rw [h1] at h
                rw [← h2] at hna
                by_cases ht : a.takes = .none
                · simp only [ht, if_true, Option.map_eq_some_iff] at h
                  obtain ⟨⟨l', ps'⟩, h, e⟩ := h
                  cases e
                  obtain ⟨g, hg, rfl, rfl⟩ := plain l' ps' h
                  rw [hf.aliases a ha (by rw [ht]; decide), List.mem_singleton] at hna
                  subst hna
                  exact ⟨.flag a.long :: g, .flag ((mem_flags hf).2 ⟨a, ha, ht, rfl⟩) hg, rfl, rfl⟩
                · simp only [if_neg ht, Option.map_eq_some_iff] at h
                  obtain ⟨⟨l', ps'⟩, h, e⟩ := h
                  cases e
                  by_cases ht' : a.takes = .one
                  · obtain ⟨v, ts, g, rfl, hv, hg, rfl, rfl⟩ := one a l' ps' ht' h
                    exact ⟨.value a.long v :: g, .value ((hf.values _ _).2 ⟨a, ha, ht', rfl, hna⟩) hv hg, rfl, rfl⟩
                  · have ht'' : a.takes = .many := not_none_one ht ht'
                    rw [hf.aliases a ha ht', List.mem_singleton] at hna
                    subst hna
                    obtain ⟨us, ts, rfl, hu, hts⟩ := values_prefix ws
                    rw [scan_many ht'' _ _ _ hu, scan_close hts, takes_many_close ht''] at h
                    simp only [Option.bind_some, Option.map_eq_some_iff] at h
                    obtain ⟨⟨l'', ps''⟩, h, e⟩ := h
                    cases e
                    obtain ⟨g, hg, rfl, rfl⟩ := ih ts l'' ps'' (by simp at hn; omega) h
                    exact ⟨.values a.long us :: g, .values ((mem_lists hf).2 ⟨a, ha, ht'', rfl⟩) hu hts hg, by simp [occurs], rfl⟩
              · rw [h1] at h
                by_cases ht : a.takes = .none
                · simp [ht] at h
                · simp only [if_neg ht, Option.map_eq_some_iff] at h
                  obtain ⟨⟨l', ps'⟩, h, e⟩ := h
                  cases e
                  obtain ⟨g, hg, rfl, rfl⟩ := plain l' ps' h
                  by_cases ht' : a.takes = .one
                  · rw [h2]
                    exact ⟨.value a.long v :: g, .valueEq ((hf.values _ _).2 ⟨a, ha, ht', rfl, hna⟩) hg, rfl, rfl⟩
                  · have ht'' : a.takes = .many := not_none_one ht ht'
                    rw [hf.aliases a ha ht', List.mem_singleton] at hna
                    rw [h2, hna]
                    exact ⟨.values a.long [v] :: g, .valuesEq ((mem_lists hf).2 ⟨a, ha, ht'', rfl⟩) hg, rfl, rfl⟩
        · rw [scan_short hc] at h
          cases hfind : specs.find? (fun a => a.short == some c) with
          | none => rw [hfind] at h; cases h
          | some a =>
            rw [hfind] at h
            obtain ⟨ha, hca⟩ := (find_short hf _ _).1 hfind
            have ht := hf.short a ha (by rw [hca]; rfl)
            have hm := (mem_letters hf).2 ⟨a, ha, hca, rfl⟩
            simp only [closeArg, Option.bind_some] at h
            split at h
            · simp only [Option.map_eq_some_iff] at h
              obtain ⟨⟨l', ps'⟩, h, e⟩ := h
              cases e
              obtain ⟨v, ts, g, rfl, hv, hg, rfl, rfl⟩ := one a l' ps' ht h
              exact ⟨.value a.long v :: g, .letter hm hv hg, rfl, rfl⟩
            · simp only [Option.map_eq_some_iff] at h
              obtain ⟨⟨l', ps'⟩, h, e⟩ := h
              cases e
              obtain ⟨g, hg, rfl, rfl⟩ := plain l' ps' h
              exact ⟨_ :: g, .letterEq hm hg, rfl, rfl⟩
            · rename_i h1 h2
              simp only [Option.map_eq_some_iff] at h
              obtain ⟨⟨l', ps'⟩, h, e⟩ := h
              cases e
              obtain ⟨g, hg, rfl, rfl⟩ := plain l' ps' h
              refine ⟨_ :: g, .letterJoined hm h1 (fun hh => ?_) hg, rfl, rfl⟩
              cases r with
              | nil => cases hh
              | cons x r => cases hh; exact h2 r rfl
      · rw [scan_word hw] at h
        simp only [Option.map_eq_some_iff] at h
        obtain ⟨⟨l', ps'⟩, h, e⟩ := h
        cases e
        obtain ⟨g, hg, rfl, rfl⟩ := plain l' ps' h
        exact ⟨.word w :: g, .word hw hg, rfl, rfl⟩

theorem scan_iff (hf : Fits specs A) (ws : List Str) (l : List (Str × List Str)) (ps : List Str) :
    scanArgs specs none ws = some (l, ps) ↔ ∃ g, Written A g ws ∧ l = occurs g ∧ ps = words g := by
  constructor
  · exact written_of_scan hf ws.length ws l ps le_rfl
  · rintro ⟨g, hg, rfl, rfl⟩
    exact scan_of_written hf hg

end

/-! ### What is given for a name -/

theorem occurs_cons_word (v : Str) (g : List Given) : occurs (.word v :: g) = occurs g := rfl

theorem filter_occurs (g : List Given) (n : Str) :
    (occurs g).filter (fun p => p.1 = n) = occurs (g.filter fun x => x.name = some n) := by
  induction g with
  | nil => rfl
  | cons x g ih =>
    have step : ∀ (m : Str) (vs : List Str) (y : Given), y.name = some m → (∀ h, occurs (y :: h) = (m, vs) :: occurs h) →
        (occurs (y :: g)).filter (fun p => p.1 = n) = occurs ((y :: g).filter fun x => x.name = some n) := by
      intro m vs y hy ho
      rw [ho, List.filter_cons, List.filter_cons, hy]
      by_cases hm : m = n
      · simp only [hm, decide_true, if_true]
        rw [hm] at ho
        rw [ho, ih]
      · have : ¬ (some m = some n) := fun h => hm (Option.some.inj h)
        simp only [hm, this, decide_false, Bool.false_eq_true, if_false]
        exact ih
    cases x with
    | flag m => exact step m [] _ rfl fun _ => rfl
    | value m v => exact step m [v] _ rfl fun _ => rfl
    | values m vs => exact step m vs _ rfl fun _ => rfl
    | word v =>
      rw [occurs_cons_word, ih, List.filter_cons]
      rfl

theorem atMostOnce_iff (g : List Given) (n : Str) : AtMostOnce g n ↔ (g.filter fun x => x.name = some n).length ≤ 1 := by
  rw [AtMostOnce, List.countP_eq_length_filter]

/-- What is given under a name: nothing, one thing, or too much. -/
theorem given_cases (g : List Given) (n : Str) :
    (AtMostOnce g n ∧ (∀ x ∈ g, x.name ≠ some n) ∧ (occurs g).filter (fun p => p.1 = n) = []) ∨
    (∃ x ∈ g, x.name = some n ∧ AtMostOnce g n ∧ (∀ y ∈ g, y.name = some n → y = x) ∧ (occurs g).filter (fun p => p.1 = n) = occurs [x]) ∨
    (¬ AtMostOnce g n ∧ ∃ a b l, (occurs g).filter (fun p => p.1 = n) = a :: b :: l) := by
  rw [atMostOnce_iff, filter_occurs]
  have hm : ∀ x, x ∈ (g.filter fun x => x.name = some n) ↔ x ∈ g ∧ x.name = some n := fun x => by simp
  generalize hf : (g.filter fun x => decide (x.name = some n)) = f at hm
  cases f with
  | nil =>
    left
    refine ⟨by simp, fun x hx hn => ?_, rfl⟩
    have := (hm x).2 ⟨hx, hn⟩
    cases this
  | cons x f =>
    right
    obtain ⟨hx, hn⟩ := (hm x).1 List.mem_cons_self
    cases f with
    | nil =>
      left
      exact ⟨x, hx, hn, by simp, fun y hy hyn => by simpa using (hm y).2 ⟨hy, hyn⟩, rfl⟩
    | cons y f =>
      right
      refine ⟨by simp, ?_⟩
      have hone : ∀ z : Given, z.name = some n → ∀ h, ∃ p, occurs (z :: h) = p :: occurs h := by
        intro z hz h
        cases z with
        | flag m => exact ⟨_, rfl⟩
        | value m v => exact ⟨_, rfl⟩
        | values m vs => exact ⟨_, rfl⟩
        | word v => cases hz
      obtain ⟨p, hp⟩ := hone x hn (y :: f)
      obtain ⟨q, hq⟩ := hone y ((hm y).1 (List.mem_cons_of_mem _ List.mem_cons_self)).2 f
      exact ⟨p, q, _, by rw [hp, hq]⟩

/-- `n` is only given as a flag. -/
def OnlyFlag (g : List Given) (n : Str) : Prop := ∀ x ∈ g, x.name = some n → x = .flag n
/-- `n` is only given with one value. -/
def OnlyValue (g : List Given) (n : Str) : Prop := ∀ x ∈ g, x.name = some n → ∃ v, x = .value n v
/-- `n` is only given as a list. -/
def OnlyList (g : List Given) (n : Str) : Prop := ∀ x ∈ g, x.name = some n → ∃ vs, x = .values n vs

theorem flagGiven_iff {g : List Given} {n : Str} (ht : OnlyFlag g n) (b : Bool) : flagGiven (occurs g) n = some b ↔ Spec.Flag g n b := by
  unfold flagGiven onceGiven Spec.Flag
  rcases given_cases g n with ⟨h1, h2, h3⟩ | ⟨x, hx, hn, h1, -, h3⟩ | ⟨h1, _, _, _, h3⟩
  · rw [h3]
    have : Given.flag n ∉ g := fun h => h2 _ h rfl
    cases b <;> simp [h1, this]
  · have e := ht x hx hn
    subst e
    rw [h3]
    cases b <;> simp [h1, hx, occurs]
  · rw [h3]
    simp [h1]

theorem valueGiven_iff {g : List Given} {n : Str} (ht : OnlyValue g n) (o : Option Str) : valueGiven (occurs g) n = some o ↔ Optional g n o := by
  unfold valueGiven onceGiven Optional
  rcases given_cases g n with ⟨h1, h2, h3⟩ | ⟨x, hx, hn, h1, h2, h3⟩ | ⟨h1, _, _, _, h3⟩
  · rw [h3]
    have : ∀ v, Given.value n v ∉ g := fun v h => h2 _ h rfl
    cases o <;> simp [h1, this]
  · obtain ⟨v, rfl⟩ := ht x hx hn
    rw [h3]
    have hv : ∀ w, Given.value n w ∈ g ↔ v = w := by
      intro w
      constructor
      · intro h
        have := h2 _ h rfl
        cases this
        rfl
      · rintro rfl
        exact hx
    simp only [hv, h1, true_and, occurs, List.filterMap_cons_some, List.filterMap_nil, Option.map_some, Option.bind_some, List.head?_cons]
    constructor
    · intro h
      cases h
      intro w
      simp
    · intro h
      rw [(h v).2 rfl]
      rfl
  · rw [h3]
    simp [h1]

theorem valuesGiven_iff {g : List Given} {n : Str} (ht : OnlyList g n) :
    (valuesGiven (occurs g) n = none ↔ ∀ vs, Given.values n vs ∉ g) ∧
    ∀ us, valuesGiven (occurs g) n = some us ↔ (∃ vs, Given.values n vs ∈ g) ∧ us = listed n g := by
  have hl : ((occurs g).filter fun p => p.1 = n).flatMap Prod.snd = listed n g := by
    clear * - ht
    induction g with
    | nil => rfl
    | cons x g ih =>
      have ih := ih fun y hy => ht y (List.mem_cons_of_mem _ hy)
      have hx := ht x List.mem_cons_self
      have skip : ∀ (m : Str) (vs : List Str), m ≠ n → ((((m, vs) :: occurs g).filter fun p => p.1 = n).flatMap Prod.snd) = listed n g := by
        intro m vs hm
        rw [List.filter_cons]
        simp only [hm, decide_false, Bool.false_eq_true, if_false]
        exact ih
      cases x with
      | flag m =>
        have hm : m ≠ n := by
          rintro rfl
          obtain ⟨vs, h⟩ := hx rfl
          cases h
        exact skip m [] hm
      | value m v =>
        have hm : m ≠ n := by
          rintro rfl
          obtain ⟨vs, h⟩ := hx rfl
          cases h
        exact skip m [v] hm
      | values m vs =>
        by_cases hm : m = n
        · subst hm
          show (((m, vs) :: occurs g).filter fun p => decide (p.1 = m)).flatMap Prod.snd = (if m = m then vs else []) ++ listed m g
          rw [List.filter_cons]
          simp only [decide_true, if_true, List.flatMap_cons, ih]
        · show (((m, vs) :: occurs g).filter fun p => decide (p.1 = n)).flatMap Prod.snd = (if m = n then vs else []) ++ listed n g
          rw [skip m vs hm, if_neg hm]
          rfl
      | word v => exact ih
  have hn : ((occurs g).filter fun p => p.1 = n) = [] ↔ ∀ vs, Given.values n vs ∉ g := by
    rw [filter_occurs]
    constructor
    · intro h vs hv
      have hm : Given.values n vs ∈ g.filter fun x => x.name = some n := by simp [hv, Given.name]
      have : (n, vs) ∈ occurs (g.filter fun x => x.name = some n) := List.mem_filterMap.2 ⟨_, hm, rfl⟩
      rw [h] at this
      cases this
    · intro h
      have : (g.filter fun x => x.name = some n) = [] := by
        rw [List.filter_eq_nil_iff]
        intro x hx hxn
        obtain ⟨vs, rfl⟩ := ht x hx (by simpa using hxn)
        exact h vs hx
      rw [this]
      rfl
  unfold valuesGiven
  generalize hf : ((occurs g).filter fun p => decide (p.1 = n)) = f at hl hn
  cases f with
  | nil =>
    have h := hn.1 rfl
    refine ⟨by simp [h], fun us => ?_⟩
    constructor
    · intro h; cases h
    · rintro ⟨⟨vs, hv⟩, -⟩
      exact absurd hv (h vs)
  | cons p f =>
    have h : ¬ ∀ vs, Given.values n vs ∉ g := fun h => by cases hn.2 h
    have h' : ∃ vs, Given.values n vs ∈ g := by
      rw [not_forall] at h
      obtain ⟨vs, h⟩ := h
      exact ⟨vs, not_not.1 h⟩
    refine ⟨by simp [h], fun us => ?_⟩
    simp only [Option.some.injEq, hl, h', true_and]
    exact eq_comm

/-- A value that has to be there, or has a default. -/
theorem valueOr_iff {α : Type} {g : List Given} {n : Str} (ht : OnlyValue g n) {read : Str → Option α} {Reads : Str → α → Prop}
    (hr : ∀ s a, read s = some a ↔ Reads s a) (d : Str) (a : α) :
    valueOr (occurs g) n d read = some a ↔ Value g n (some d) Reads a := by
  unfold valueOr Value
  cases hv : valueGiven (occurs g) n with
  | none =>
    have : ¬ AtMostOnce g n := by
      intro h
      rcases given_cases g n with ⟨h1, h2, h3⟩ | ⟨x, hx, hn, h1, h2, h3⟩ | ⟨h1, -⟩
      · have := (valueGiven_iff ht none).2 ⟨h, fun v => by
          constructor
          · intro h; cases h
          · intro hm; exact absurd rfl (h2 _ hm)⟩
        rw [hv] at this
        cases this
      · obtain ⟨v, rfl⟩ := ht x hx hn
        have := (valueGiven_iff ht (some v)).2 ⟨h, fun w => by
          constructor
          · intro h; cases h; exact hx
          · intro hm; have := h2 _ hm rfl; cases this; rfl⟩
        rw [hv] at this
        cases this
      · exact h1 h
    simp [this]
  | some o =>
    obtain ⟨h1, h2⟩ := (valueGiven_iff ht o).1 hv
    simp only [Option.bind_eq_bind, Option.bind_some, h1, true_and]
    cases o with
    | none =>
      have : ∀ v, Given.value n v ∉ g := fun v h => by have := (h2 v).2 h; cases this
      simp [this, hr]
    | some v =>
      have hg := (h2 v).1 rfl
      have hu : ∀ w, Given.value n w ∈ g ↔ v = w := fun w => by rw [← h2 w]; simp
      simp [hu, hr]

theorem valueReq_iff {α : Type} {g : List Given} {n : Str} (ht : OnlyValue g n) {read : Str → Option α} {Reads : Str → α → Prop}
    (hr : ∀ s a, read s = some a ↔ Reads s a) (a : α) :
    valueReq (occurs g) n read = some a ↔ Value g n none Reads a := by
  unfold valueReq Value
  cases hv : valueGiven (occurs g) n with
  | none =>
    constructor
    · intro h; cases h
    · rintro ⟨h, ⟨v, hm, -⟩ | ⟨-, d, hd, -⟩⟩
      · have := (valueGiven_iff ht (some v)).2 ⟨h, fun w => by
          constructor
          · intro h; cases h; exact hm
          · intro hw
            rcases given_cases g n with ⟨-, h2, -⟩ | ⟨x, hx, hn, h1, h2, h3⟩ | ⟨h1, -⟩
            · exact absurd rfl (h2 _ hm)
            · have e1 := h2 _ hm rfl
              have e2 := h2 _ hw rfl
              rw [← e2] at e1
              cases e1
              rfl
            · exact absurd h h1⟩
        rw [hv] at this
        cases this
      · cases hd
  | some o =>
    obtain ⟨h1, h2⟩ := (valueGiven_iff ht o).1 hv
    simp only [Option.bind_eq_bind, Option.bind_some, h1, true_and]
    cases o with
    | none =>
      have : ∀ v, Given.value n v ∉ g := fun v h => by have := (h2 v).2 h; cases this
      simp [this]
    | some v =>
      have hu : ∀ w, Given.value n w ∈ g ↔ v = w := fun w => by rw [← h2 w]; simp
      simp [hu, hr]

theorem valueOpt_iff {g : List Given} {n : Str} (ht : OnlyValue g n) (o : Option Str) :
    valueOpt (occurs g) n some = some o ↔ Optional g n o := by
  rw [← valueGiven_iff ht]
  unfold valueOpt
  cases valueGiven (occurs g) n with
  | none => simp
  | some o' => cases o' <;> simp

theorem mapM_iff {α : Type} {read : Str → Option α} {Reads : Str → α → Prop} (hr : ∀ s a, read s = some a ↔ Reads s a) (l : List Str)
    (as : List α) : l.mapM read = some as ↔ List.Forall₂ Reads l as := by
  induction l generalizing as with
  | nil =>
    constructor
    · intro h
      cases h
      exact .nil
    · intro h
      cases h
      rfl
  | cons s l ih =>
    rw [List.mapM_cons]
    constructor
    · intro h
      obtain ⟨a, h1, h⟩ := Option.bind_eq_some_iff.1 h
      obtain ⟨bs, h2, h⟩ := Option.bind_eq_some_iff.1 h
      cases h
      exact .cons ((hr s a).1 h1) ((ih bs).1 h2)
    · intro h
      cases h with
      | cons h1 h2 =>
        rw [(hr _ _).2 h1, (ih _).2 h2]
        rfl

/-- What is written is of the right kind. -/
theorem written_kinds {A : Arguments} {g : List Given} {ws : List Str} (h : Written A g ws) : ∀ x ∈ g, match x with
    | .flag n => n ∈ A.flags
    | .value n _ => n ∈ A.values.map Prod.fst ∨ n ∈ A.letters.map Prod.fst
    | .values n _ => n ∈ A.lists
    | .word _ => True := by
  induction h with
  | done => intro x hx; cases hx
  | flag h _ ih => intro x hx; rcases List.mem_cons.1 hx with rfl | hx; exacts [h, ih x hx]
  | value h _ _ ih =>
    intro x hx
    rcases List.mem_cons.1 hx with rfl | hx
    exacts [.inl (List.mem_map.2 ⟨_, h, rfl⟩), ih x hx]
  | valueEq h _ ih =>
    intro x hx
    rcases List.mem_cons.1 hx with rfl | hx
    exacts [.inl (List.mem_map.2 ⟨_, h, rfl⟩), ih x hx]
  | letter h _ _ ih =>
    intro x hx
    rcases List.mem_cons.1 hx with rfl | hx
    exacts [.inr (List.mem_map.2 ⟨_, h, rfl⟩), ih x hx]
  | letterEq h _ ih =>
    intro x hx
    rcases List.mem_cons.1 hx with rfl | hx
    exacts [.inr (List.mem_map.2 ⟨_, h, rfl⟩), ih x hx]
  | letterJoined h _ _ _ ih =>
    intro x hx
    rcases List.mem_cons.1 hx with rfl | hx
    exacts [.inr (List.mem_map.2 ⟨_, h, rfl⟩), ih x hx]
  | values h _ _ _ ih => intro x hx; rcases List.mem_cons.1 hx with rfl | hx; exacts [h, ih x hx]
  | valuesEq h _ ih => intro x hx; rcases List.mem_cons.1 hx with rfl | hx; exacts [h, ih x hx]
  | word _ _ ih => intro x hx; rcases List.mem_cons.1 hx with rfl | hx; exacts [trivial, ih x hx]
  | rest =>
    intro x hx
    obtain ⟨v, -, rfl⟩ := List.mem_map.1 hx
    trivial

theorem onlyFlag {A : Arguments} {g : List Given} {ws : List Str} (h : Written A g ws) {n : Str}
    (hn : n ∉ A.values.map Prod.fst ++ A.letters.map Prod.fst ++ A.lists) : OnlyFlag g n := by
  intro x hx hxn
  have hk := written_kinds h x hx
  rw [List.mem_append, List.mem_append] at hn
  cases x with
  | flag m => cases hxn; rfl
  | value m v => cases hxn; exact absurd (.inl hk) hn
  | values m vs => cases hxn; exact absurd (.inr hk) hn
  | word v => cases hxn

theorem onlyValue {A : Arguments} {g : List Given} {ws : List Str} (h : Written A g ws) {n : Str} (hn : n ∉ A.flags ++ A.lists) :
    OnlyValue g n := by
  intro x hx hxn
  have hk := written_kinds h x hx
  rw [List.mem_append] at hn
  cases x with
  | flag m => cases hxn; exact absurd (.inl hk) hn
  | value m v => cases hxn; exact ⟨v, rfl⟩
  | values m vs => cases hxn; exact absurd (.inr hk) hn
  | word v => cases hxn

theorem onlyList {A : Arguments} {g : List Given} {ws : List Str} (h : Written A g ws) {n : Str}
    (hn : n ∉ A.values.map Prod.fst ++ A.letters.map Prod.fst ++ A.flags) : OnlyList g n := by
  intro x hx hxn
  have hk := written_kinds h x hx
  rw [List.mem_append, List.mem_append] at hn
  cases x with
  | flag m => cases hxn; exact absurd (.inr hk) hn
  | value m v => cases hxn; exact absurd (.inl hk) hn
  | values m vs => cases hxn; exact ⟨vs, rfl⟩
  | word v => cases hxn

end Swc
