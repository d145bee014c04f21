/-
C98: the files of a comparison are those that the path pattern describes.
-/
import Verif.Spec.Glob
import Verif.Props.Click
import Verif.Props.Branches

namespace Swc

open Spec

/-! ### Matching -/

/-- The tokens describe the name. -/
inductive TokFits : List GlobTok → Str → Prop
  | done : TokFits [] []
  | one {t : GlobTok} {ts : List GlobTok} {c : Char} {s : Str} : t.accepts c = true → TokFits ts s → TokFits (t :: ts) (c :: s)
  | none {ts : List GlobTok} {s : Str} : TokFits ts s → TokFits (.anySeq :: ts) s
  | more {ts : List GlobTok} {c : Char} {s : Str} : TokFits (.anySeq :: ts) s → TokFits (.anySeq :: ts) (c :: s)

theorem fits_seq {ts : List GlobTok} {s : Str} : TokFits (.anySeq :: ts) s ↔ ∃ s', s' <:+ s ∧ TokFits ts s' := by
  constructor
  · intro h
    generalize e : GlobTok.anySeq :: ts = p at h
    induction h with
    | done => nomatch e
    | one ha => cases e; nomatch ha
    | none h => cases e; exact ⟨_, List.suffix_rfl, h⟩
    | more h ih =>
      obtain ⟨s', h1, h2⟩ := ih e
      exact ⟨s', h1.trans (List.suffix_cons _ _), h2⟩
  · rintro ⟨s', ⟨t, rfl⟩, h⟩
    induction t with
    | nil => exact .none h
    | cons c t ih => exact .more ih

theorem star_spec {rest : Str → MatchResult} {P : Str → Prop} (h1 : ∀ s, rest s = .matched ↔ P s)
    (h2 : ∀ s, rest s = .entirePatternDoesntMatch → ∀ s', s' <:+ s → ¬ P s') (s : Str) :
    (matchesFrom.star rest s = .matched ↔ ∃ s', s' <:+ s ∧ P s')
      ∧ (matchesFrom.star rest s = .entirePatternDoesntMatch → ∀ s', s' <:+ s → ¬ P s') := by
  induction s with
  | nil =>
    unfold matchesFrom.star
    refine ⟨?_, h2 []⟩
    rw [h1]
    constructor
    · exact fun h => ⟨[], List.suffix_rfl, h⟩
    · rintro ⟨s', h, hp⟩
      rwa [List.suffix_nil.1 h] at hp
  | cons c s ih =>
    unfold matchesFrom.star
    have h1 := h1 (c :: s)
    have h2 := h2 (c :: s)
    generalize rest (c :: s) = r at *
    cases r with
    | matched => exact ⟨⟨fun _ => ⟨_, List.suffix_rfl, h1.1 rfl⟩, fun _ => rfl⟩, fun h => nomatch h⟩
    | entirePatternDoesntMatch =>
      have h2 := h2 rfl
      exact ⟨⟨(fun h => nomatch h), fun ⟨s', hs, hp⟩ => absurd hp (h2 s' hs)⟩, fun _ => h2⟩
    | subPatternDoesntMatch =>
      have hn : ¬ P (c :: s) := fun h => nomatch h1.2 h
      refine ⟨ih.1.trans ⟨fun ⟨s', hs, hp⟩ => ⟨s', hs.trans (List.suffix_cons _ _), hp⟩, ?_⟩, ?_⟩
      · rintro ⟨s', hs, hp⟩
        rcases List.suffix_cons_iff.1 hs with rfl | hs
        · exact absurd hp hn
        · exact ⟨s', hs, hp⟩
      · intro h s' hs hp
        rcases List.suffix_cons_iff.1 hs with rfl | hs
        · exact hn hp
        · exact ih.2 h s' hs hp

theorem fits_cons {t : GlobTok} {ts : List GlobTok} (ht : t ≠ .anySeq) {c : Char} {s : Str} :
    TokFits (t :: ts) (c :: s) ↔ t.accepts c = true ∧ TokFits ts s :=
  ⟨fun h => by
    cases h with
    | one h1 h2 => exact ⟨h1, h2⟩
    | none => exact absurd rfl ht
    | more => exact absurd rfl ht, fun h => .one h.1 h.2⟩

theorem matchesFrom_spec {ts : List GlobTok} (hr : .anyRec ∉ ts) (s : Str) :
    (matchesFrom ts s = .matched ↔ TokFits ts s) ∧ (matchesFrom ts s = .entirePatternDoesntMatch → ∀ s', s' <:+ s → ¬ TokFits ts s') := by
  induction ts generalizing s with
  | nil =>
    cases s with
    | nil => exact ⟨⟨fun _ => .done, fun _ => rfl⟩, fun h => nomatch h⟩
    | cons c s => exact ⟨⟨(fun h => nomatch h), (fun h => nomatch h)⟩, fun h => nomatch h⟩
  | cons t ts ih =>
    have ih := ih (fun h => hr (List.mem_cons_of_mem _ h))
    by_cases ht : t = .anySeq
    · subst ht
      unfold matchesFrom
      have := star_spec (rest := matchesFrom ts) (P := TokFits ts) (fun s => (ih s).1) (fun s => (ih s).2) s
      rw [this.1, fits_seq]
      refine ⟨Iff.rfl, fun h s' hs hf => ?_⟩
      obtain ⟨s'', h1, h2⟩ := fits_seq.1 hf
      exact this.2 h s'' (h1.trans hs) h2
    · have hr' : t ≠ .anyRec := fun h => hr (h ▸ List.mem_cons_self)
      have hnil : ¬ TokFits (t :: ts) [] := fun h => by
        cases h with
        | none => exact ht rfl
      cases s with
      | nil =>
        have e : matchesFrom (t :: ts) [] = .entirePatternDoesntMatch := by
          cases t <;> first | rfl | exact absurd rfl ht | exact absurd rfl hr'
        rw [e]
        refine ⟨⟨(fun h => nomatch h), fun h => absurd h hnil⟩, fun _ s' hs => ?_⟩
        rw [List.suffix_nil.1 hs]
        exact hnil
      | cons c s =>
        have e : matchesFrom (t :: ts) (c :: s) = if t.accepts c then matchesFrom ts s else .subPatternDoesntMatch := by
          cases t <;> first | rfl | exact absurd rfl ht | exact absurd rfl hr'
        rw [e, fits_cons ht]
        by_cases ha : t.accepts c = true
        · rw [if_pos ha, (ih s).1]
          refine ⟨⟨fun h => ⟨ha, h⟩, fun h => h.2⟩, fun h s' hs hf => ?_⟩
          have hall := (ih s).2 h
          rcases List.suffix_cons_iff.1 hs with rfl | hs
          · exact hall s List.suffix_rfl ((fits_cons ht).1 hf).2
          · cases s' with
            | nil => exact hnil hf
            | cons d s' => exact hall s' ((List.suffix_cons _ _).trans hs) ((fits_cons ht).1 hf).2
        · rw [if_neg ha]
          exact ⟨⟨(fun h => nomatch h), fun h => absurd h.1 ha⟩, fun h => nomatch h⟩

theorem globMatches_iff {ts : List GlobTok} (hr : .anyRec ∉ ts) (s : Str) : globMatches ts s = true ↔ TokFits ts s := by
  unfold globMatches
  rw [decide_eq_true_eq]
  exact (matchesFrom_spec hr s).1

/-! ### Patterns -/

theorem charSpecs_has (s : Str) (c : Char) : (charSpecs s).any (CharSpec.has c) = true ↔ InBrackets s c := by
  fun_induction charSpecs s with
  | case1 a b s ih =>
    simp only [List.any_cons, Bool.or_eq_true, ih, CharSpec.has, Bool.and_eq_true, decide_eq_true_eq]
    constructor
    · rintro (⟨h1, h2⟩ | h)
      · exact .range h1 h2
      · exact .after h
    · intro h
      cases h with
      | range h1 h2 => exact .inl ⟨h1, h2⟩
      | after h => exact .inr h
      | single h => exact absurd rfl (h _ _)
      | later h => exact absurd rfl (h _ _)
  | case2 a s hn ih =>
    have hn' : ∀ b t, s ≠ '-' :: b :: t := fun b t e => hn b t e
    simp only [List.any_cons, Bool.or_eq_true, ih, CharSpec.has, decide_eq_true_eq]
    constructor
    · rintro (rfl | h)
      · exact .single hn'
      · exact .later hn' h
    · intro h
      cases h with
      | range => exact absurd rfl (hn' _ _)
      | after => exact absurd rfl (hn' _ _)
      | single => exact .inl rfl
      | later _ h => exact .inr h
  | case3 => exact ⟨(fun h => nomatch h), (fun h => nomatch h)⟩

theorem untilBracket_iff (s body rest : Str) : untilBracket s = some (body, rest) ↔ ']' ∉ body ∧ s = body ++ ']' :: rest := by
  induction s generalizing body with
  | nil => simp [untilBracket]
  | cons c s ih =>
    by_cases hc : c = ']'
    · subst hc
      rw [show untilBracket (']' :: s) = some ([], s) from rfl]
      constructor
      · intro h; cases h; exact ⟨by simp, rfl⟩
      · rintro ⟨h1, h2⟩
        cases body with
        | nil => cases h2; rfl
        | cons b body => cases h2; exact absurd List.mem_cons_self h1
    · have e : untilBracket (c :: s) = (untilBracket s).map fun r => (c :: r.1, r.2) := by
        rw [untilBracket]
        exact fun h => hc h
      rw [e, Option.map_eq_some_iff]
      constructor
      · rintro ⟨⟨b, r⟩, h1, h2⟩
        cases h2
        obtain ⟨h3, h4⟩ := (ih b).1 h1
        exact ⟨by simp only [List.mem_cons, not_or]; exact ⟨fun h => hc h.symm, h3⟩, by rw [h4]; rfl⟩
      · rintro ⟨h1, h2⟩
        cases body with
        | nil => cases h2; exact absurd rfl hc
        | cons b body =>
          cases h2
          simp only [List.mem_cons, not_or] at h1
          exact ⟨(body, rest), (ih body).2 ⟨h1.2, rfl⟩, rfl⟩

theorem parse_nil (prev : Option Char) : parseGlob prev [] = some [] := by rw [parseGlob]

theorem parse_one (prev : Option Char) (s : Str) : parseGlob prev ('?' :: s) = (parseGlob (some '?') s).map (.anyChar :: ·) := by rw [parseGlob]

theorem parse_char (prev : Option Char) {c : Char} (h1 : c ≠ '?') (h2 : c ≠ '*') (h3 : c ≠ '[') (s : Str) :
    parseGlob prev (c :: s) = (parseGlob (some c) s).map (.char c :: ·) := by
  rw [parseGlob] <;> intros <;> simp_all

theorem parse_star (prev : Option Char) {s : Str} (h : s.head? ≠ some '*') : parseGlob prev ('*' :: s) = (parseGlob (some '*') s).map (.anySeq :: ·) := by
  rw [parseGlob] <;> intros <;> simp_all

theorem parse_stars (prev : Option Char) {s : Str} (h : '/' ∉ s) :
    parseGlob prev ('*' :: '*' :: s) = if s = [] ∧ (prev = none ∨ prev = some '/') then some [.anyRec] else none := by
  cases s with
  | nil => rw [parseGlob]; simp
  | cons c s =>
    rw [if_neg (by simp)]
    by_cases hc : c = '*'
    · subst hc; rw [parseGlob]
    · rw [parseGlob, if_neg]
      · rintro ⟨-, rfl⟩; simp at h
      · exact hc

theorem parse_not (prev : Option Char) {x : Char} {body s : Str} (h : ']' ∉ body) :
    parseGlob prev ('[' :: '!' :: x :: body ++ ']' :: s) = (parseGlob (some ']') s).map (.except (charSpecs (x :: body)) :: ·) := by
  have e := (untilBracket_iff (body ++ ']' :: s) body s).2 ⟨h, rfl⟩
  rw [show ('[' :: '!' :: x :: body ++ ']' :: s) = '[' :: '!' :: x :: (body ++ ']' :: s) from rfl, parseGlob]
  split
  · next h' => rw [e] at h'; cases h'; rfl
  · next h' => rw [e] at h'; cases h'

theorem parse_among (prev : Option Char) {x : Char} {body s : Str} (hx : x ≠ '!') (h : ']' ∉ body) :
    parseGlob prev ('[' :: x :: body ++ ']' :: s) = (parseGlob (some ']') s).map (.within (charSpecs (x :: body)) :: ·) := by
  have e := (untilBracket_iff (body ++ ']' :: s) body s).2 ⟨h, rfl⟩
  rw [show ('[' :: x :: body ++ ']' :: s) = '[' :: x :: (body ++ ']' :: s) from rfl, parseGlob]
  · split
    · next h' => rw [e] at h'; cases h'; rfl
    · next h' => rw [e] at h'; cases h'
  all_goals intros; simp_all

/-- A pattern that begins with a bracket: it is closed, or the pattern is refused. -/
theorem parse_bracket (prev : Option Char) (s : Str) : (∃ x body p, ']' ∉ body ∧ s = '!' :: x :: body ++ ']' :: p) ∨ (∃ x body p, x ≠ '!' ∧ ']' ∉ body ∧ s = x :: body ++ ']' :: p)
    ∨ parseGlob prev ('[' :: s) = none := by
  match s with
  | [] => exact .inr (.inr (by rw [parseGlob]))
  | ['!'] => exact .inr (.inr (by rw [parseGlob]))
  | '!' :: x :: s =>
    cases e : untilBracket s with
    | some r =>
      obtain ⟨h1, h2⟩ := (untilBracket_iff s r.1 r.2).1 e
      exact .inl ⟨x, r.1, r.2, h1, by rw [h2]; rfl⟩
    | none =>
      refine .inr (.inr ?_)
      rw [parseGlob]
      split
      · next h' => rw [e] at h'; cases h'
      · rfl
  | x :: s =>
    by_cases hx : x = '!'
    · subst hx
      cases s with
      | nil => exact .inr (.inr (by rw [parseGlob]))
      | cons y s =>
        cases e : untilBracket s with
        | some r =>
          obtain ⟨h1, h2⟩ := (untilBracket_iff s r.1 r.2).1 e
          exact .inl ⟨y, r.1, r.2, h1, by rw [h2]; rfl⟩
        | none =>
          refine .inr (.inr ?_)
          rw [parseGlob]
          split
          · next h' => rw [e] at h'; cases h'
          · rfl
    · cases e : untilBracket s with
      | some r =>
        obtain ⟨h1, h2⟩ := (untilBracket_iff s r.1 r.2).1 e
        exact .inr (.inl ⟨x, r.1, r.2, hx, h1, by rw [h2]; rfl⟩)
      | none =>
        refine .inr (.inr ?_)
        rw [parseGlob]
        · split
          · next h' => rw [e] at h'; cases h'
          · rfl
        all_goals intros; simp_all

theorem parse_wellFormed {s : Str} (h : WellFormed s) (prev : Option Char) : ∃ ts, parseGlob prev s = some ts := by
  induction h generalizing prev with
  | done => exact ⟨[], parse_nil prev⟩
  | @same c p h1 h2 _ ih =>
    by_cases hc : c = '?'
    · subst hc
      obtain ⟨ts, e⟩ := ih (some '?')
      exact ⟨_, by rw [parse_one, e]; rfl⟩
    · obtain ⟨ts, e⟩ := ih (some c)
      exact ⟨_, by rw [parse_char prev hc h1 h2, e]; rfl⟩
  | star h _ ih =>
    obtain ⟨ts, e⟩ := ih (some '*')
    exact ⟨_, by rw [parse_star prev h, e]; rfl⟩
  | among hx hb _ ih =>
    obtain ⟨ts, e⟩ := ih (some ']')
    exact ⟨_, by rw [parse_among prev hx hb, e]; rfl⟩
  | notAmong hb _ ih =>
    obtain ⟨ts, e⟩ := ih (some ']')
    exact ⟨_, by rw [parse_not prev hb, e]; rfl⟩

theorem map_some_cons {t : GlobTok} {r : Option (List GlobTok)} {ts : List GlobTok} (h : r.map (t :: ·) = some ts) : ∃ ts', r = some ts' ∧ ts = t :: ts' := by
  obtain ⟨ts', h1, h2⟩ := Option.map_eq_some_iff.1 h
  exact ⟨ts', h1, h2.symm⟩

theorem describes_bracket {x : Char} {body p : Str} (hx : x ≠ '!') (hb : ']' ∉ body) (n : Str) :
    Describes ('[' :: x :: body ++ ']' :: p) n ↔ ∃ c n', n = c :: n' ∧ InBrackets (x :: body) c ∧ Describes p n' := by
  constructor
  · intro h
    generalize e : '[' :: x :: body ++ ']' :: p = q at h
    cases h with
    | done => nomatch e
    | same _ _ h3 => cases e; exact absurd rfl h3
    | one => nomatch e
    | none => nomatch e
    | more => nomatch e
    | @among y c body' p' n' hy hb' hi hd =>
      simp only [List.cons_append, List.cons.injEq, true_and] at e
      obtain ⟨rfl, e⟩ := e
      have h1 := (untilBracket_iff _ body p).2 ⟨hb, rfl⟩
      rw [e, (untilBracket_iff _ body' p').2 ⟨hb', rfl⟩] at h1
      cases h1
      exact ⟨c, n', rfl, hi, hd⟩
    | notAmong => simp only [List.cons_append, List.cons.injEq, true_and] at e; exact absurd e.1 hx
  · rintro ⟨c, n', rfl, hi, hd⟩
    exact .among hx hb hi hd

theorem describes_not {x : Char} {body p : Str} (hb : ']' ∉ body) (n : Str) :
    Describes ('[' :: '!' :: x :: body ++ ']' :: p) n ↔ ∃ c n', n = c :: n' ∧ ¬ InBrackets (x :: body) c ∧ Describes p n' := by
  constructor
  · intro h
    generalize e : '[' :: '!' :: x :: body ++ ']' :: p = q at h
    cases h with
    | done => nomatch e
    | same _ _ h3 => cases e; exact absurd rfl h3
    | one => nomatch e
    | none => nomatch e
    | more => nomatch e
    | among hy => simp only [List.cons_append, List.cons.injEq, true_and] at e; exact absurd e.1.symm hy
    | @notAmong y c body' p' n' hb' hi hd =>
      simp only [List.cons_append, List.cons.injEq, true_and] at e
      obtain ⟨rfl, e⟩ := e
      have h1 := (untilBracket_iff _ body p).2 ⟨hb, rfl⟩
      rw [e, (untilBracket_iff _ body' p').2 ⟨hb', rfl⟩] at h1
      cases h1
      exact ⟨c, n', rfl, hi, hd⟩
  · rintro ⟨c, n', rfl, hi, hd⟩
    exact .notAmong hb hi hd

theorem describes_star {p n : Str} : Describes ('*' :: p) n ↔ ∃ n', n' <:+ n ∧ Describes p n' := by
  constructor
  · intro h
    generalize e : '*' :: p = q at h
    induction h with
    | done => nomatch e
    | same _ h2 => cases e; exact absurd rfl h2
    | one => nomatch e
    | none h => cases e; exact ⟨_, List.suffix_rfl, h⟩
    | more _ ih =>
      obtain ⟨n', h1, h2⟩ := ih e
      exact ⟨n', h1.trans (List.suffix_cons _ _), h2⟩
    | among => nomatch e
    | notAmong => nomatch e
  · rintro ⟨n', ⟨t, rfl⟩, h⟩
    induction t with
    | nil => exact .none h
    | cons c t ih => exact .more ih

theorem tokFits_cons {t : GlobTok} {ts : List GlobTok} (ht : t ≠ .anySeq) {n : Str} :
    TokFits (t :: ts) n ↔ ∃ c n', n = c :: n' ∧ t.accepts c = true ∧ TokFits ts n' := by
  cases n with
  | nil =>
    constructor
    · intro h; cases h; exact absurd rfl ht
    · rintro ⟨c, n', h, -⟩; nomatch h
  | cons c n => rw [fits_cons ht]; simp

theorem parse_fits {prev : Option Char} {s : Str} {ts : List GlobTok} (h : parseGlob prev s = some ts) (hs : '/' ∉ s)
    (hp : s ≠ anyDirs ∨ (prev ≠ none ∧ prev ≠ some '/')) : WellFormed s ∧ .anyRec ∉ ts ∧ ∀ n, TokFits ts n ↔ Describes s n := by
  have key : ∀ k, ∀ s : Str, s.length ≤ k → ∀ prev ts, parseGlob prev s = some ts → '/' ∉ s → (s ≠ anyDirs ∨ (prev ≠ none ∧ prev ≠ some '/')) →
      WellFormed s ∧ .anyRec ∉ ts ∧ ∀ n, TokFits ts n ↔ Describes s n := by
    intro k
    induction k with
    | zero =>
      intro s hk prev ts h _ _
      cases List.length_eq_zero_iff.1 (Nat.le_zero.1 hk)
      rw [parse_nil] at h
      cases h
      exact ⟨.done, by simp, fun n => ⟨fun h => by cases h; exact .done, fun h => by cases h; exact .done⟩⟩
    | succ k ih =>
      intro s hk prev ts h hs hp
      cases s with
      | nil =>
        rw [parse_nil] at h
        cases h
        exact ⟨.done, by simp, fun n => ⟨fun h => by cases h; exact .done, fun h => by cases h; exact .done⟩⟩
      | cons c s =>
        have hk' : s.length ≤ k := by simpa using hk
        have hs' : '/' ∉ s := fun h => hs (List.mem_cons_of_mem _ h)
        have hc' : some c ≠ none ∧ some c ≠ some '/' := ⟨by simp, fun h => hs (by cases h; simp)⟩
        by_cases hq : c = '?'
        · subst hq
          rw [parse_one] at h
          obtain ⟨ts', e, rfl⟩ := map_some_cons h
          obtain ⟨h1, h2, h3⟩ := ih s hk' _ _ e hs' (.inr hc')
          refine ⟨.same (by decide) (by decide) h1, by simpa using h2, fun n => ?_⟩
          rw [tokFits_cons (by simp)]
          constructor
          · rintro ⟨d, n', rfl, -, hf⟩
            exact .one ((h3 n').1 hf)
          · intro h
            cases h with
            | same hq => exact absurd rfl hq
            | one h => exact ⟨_, _, rfl, rfl, (h3 _).2 h⟩
        by_cases hst : c = '*'
        · subst hst
          by_cases hh : s.head? = some '*'
          · exfalso
            cases s with
            | nil => nomatch hh
            | cons d s =>
              cases hh
              rw [parse_stars prev (fun h => hs (by simp [h]))] at h
              split at h
              · next hc =>
                obtain ⟨rfl, hc⟩ := hc
                rcases hp with hp | hp
                · exact hp rfl
                · exact hc.elim hp.1 hp.2
              · nomatch h
          · rw [parse_star prev hh] at h
            obtain ⟨ts', e, rfl⟩ := map_some_cons h
            obtain ⟨h1, h2, h3⟩ := ih s hk' _ _ e hs' (.inr hc')
            refine ⟨.star hh h1, by simpa using h2, fun n => ?_⟩
            rw [fits_seq, describes_star]
            simp only [h3]
        by_cases hb : c = '['
        · subst hb
          rcases parse_bracket prev s with ⟨x, body, p, hb, rfl⟩ | ⟨x, body, p, hx, hb, rfl⟩ | hn
          · have e' := parse_not prev (x := x) hb (s := p)
            simp only [List.cons_append] at e' h hs' hk' ⊢
            rw [e'] at h
            obtain ⟨ts', e, rfl⟩ := map_some_cons h
            obtain ⟨h1, h2, h3⟩ := ih p (by simp at hk'; omega) _ _ e (fun h => hs' (by simp [h])) (.inr ⟨by simp, by simp⟩)
            refine ⟨.notAmong hb h1, by simpa using h2, fun n => ?_⟩
            rw [tokFits_cons (by simp)]
            refine Iff.trans ?_ (describes_not hb n).symm
            simp only [GlobTok.accepts, Bool.not_eq_true', h3, ← Bool.not_eq_true, charSpecs_has]
          · have e' := parse_among prev hx hb (s := p)
            simp only [List.cons_append] at e' h hs' hk' ⊢
            rw [e'] at h
            obtain ⟨ts', e, rfl⟩ := map_some_cons h
            obtain ⟨h1, h2, h3⟩ := ih p (by simp at hk'; omega) _ _ e (fun h => hs' (by simp [h])) (.inr ⟨by simp, by simp⟩)
            refine ⟨.among hx hb h1, by simpa using h2, fun n => ?_⟩
            rw [tokFits_cons (by simp)]
            refine Iff.trans ?_ (describes_bracket hx hb n).symm
            simp only [GlobTok.accepts, h3, charSpecs_has]
          · rw [hn] at h; nomatch h
        rw [parse_char prev hq hst hb] at h
        obtain ⟨ts', e, rfl⟩ := map_some_cons h
        obtain ⟨h1, h2, h3⟩ := ih s hk' _ _ e hs' (.inr hc')
        refine ⟨.same hst hb h1, by simpa using h2, fun n => ?_⟩
        rw [tokFits_cons (by simp)]
        constructor
        · rintro ⟨d, n', rfl, hd, hf⟩
          simp only [GlobTok.accepts, decide_eq_true_eq] at hd
          subst hd
          exact .same hq hst hb ((h3 n').1 hf)
        · intro h
          cases h with
          | same _ _ _ h => exact ⟨_, _, rfl, by simp [GlobTok.accepts], (h3 _).2 h⟩
          | one => exact absurd rfl hq
          | none => exact absurd rfl hst
          | more => exact absurd rfl hst
          | among => exact absurd rfl hb
          | notAmong => exact absurd rfl hb
  exact key s.length s (Nat.le_refl _) prev ts h hs hp

/-- The first token is the first character, or it is a wildcard. -/
theorem parse_head {prev : Option Char} {c : Char} {s : Str} {ts : List GlobTok} (h : parseGlob prev (c :: s) = some ts) (hs : '/' ∉ s) :
    (∃ ts', ts = .char c :: ts' ∧ parseGlob (some c) s = some ts') ∨ (∃ t ts', ts = t :: ts' ∧ ∀ d, t ≠ .char d) := by
  by_cases hq : c = '?'
  · subst hq
    rw [parse_one] at h
    obtain ⟨ts', -, rfl⟩ := map_some_cons h
    exact .inr ⟨_, _, rfl, by simp⟩
  by_cases hst : c = '*'
  · subst hst
    by_cases hh : s.head? = some '*'
    · cases s with
      | nil => nomatch hh
      | cons d s =>
        cases hh
        rw [parse_stars prev (fun h => hs (by simp [h]))] at h
        split at h
        · cases h; exact .inr ⟨_, _, rfl, by simp⟩
        · nomatch h
    · rw [parse_star prev hh] at h
      obtain ⟨ts', -, rfl⟩ := map_some_cons h
      exact .inr ⟨_, _, rfl, by simp⟩
  by_cases hb : c = '['
  · subst hb
    rcases parse_bracket prev s with ⟨x, body, p, hb, rfl⟩ | ⟨x, body, p, hx, hb, rfl⟩ | hn
    · have e' := parse_not prev (x := x) hb (s := p)
      simp only [List.cons_append] at e' h
      rw [e'] at h
      obtain ⟨ts', -, rfl⟩ := map_some_cons h
      exact .inr ⟨_, _, rfl, by simp⟩
    · have e' := parse_among prev hx hb (s := p)
      simp only [List.cons_append] at e' h
      rw [e'] at h
      obtain ⟨ts', -, rfl⟩ := map_some_cons h
      exact .inr ⟨_, _, rfl, by simp⟩
    · rw [hn] at h; nomatch h
  rw [parse_char prev hq hst hb] at h
  obtain ⟨ts', e, rfl⟩ := map_some_cons h
  exact .inl ⟨ts', rfl, e⟩

theorem literal_eq {prev : Option Char} {p s : Str} {ts : List GlobTok} (h : parseGlob prev p = some ts) (hp : '/' ∉ p) (hl : globLiteral ts = some s) : s = p := by
  induction p generalizing prev ts s with
  | nil => rw [parse_nil] at h; cases h; cases hl; rfl
  | cons c p ih =>
    have hp' : '/' ∉ p := fun h => hp (List.mem_cons_of_mem _ h)
    rcases parse_head h hp' with ⟨ts', rfl, e⟩ | ⟨t, ts', rfl, ht⟩
    · obtain ⟨s', h1, rfl⟩ := Option.map_eq_some_iff.1 hl
      rw [ih e hp' h1]
    · cases t <;> first | exact absurd rfl (ht _) | nomatch hl

theorem literal_fits {ts : List GlobTok} {s : Str} (h : globLiteral ts = some s) (n : Str) : TokFits ts n ↔ n = s := by
  induction ts generalizing s n with
  | nil =>
    cases h
    exact ⟨fun h => by cases h; rfl, fun h => h ▸ .done⟩
  | cons t ts ih =>
    cases t with
    | char c =>
      obtain ⟨s', h1, rfl⟩ := Option.map_eq_some_iff.1 h
      rw [tokFits_cons (by simp)]
      constructor
      · rintro ⟨d, n', rfl, hd, hf⟩
        simp only [GlobTok.accepts, decide_eq_true_eq] at hd
        rw [hd, (ih h1 n').1 hf]
      · rintro rfl
        exact ⟨_, _, rfl, by simp [GlobTok.accepts], (ih h1 s').2 rfl⟩
    | _ => nomatch h

/-! ### Directories -/

/-- A path to which names are added; the dot alone is dropped. -/
def bare (path : Path) : Path := if path = [.cur] then [] else path

theorem globJoin_bare (path : Path) (s : Str) : globJoin path s = bare path ++ [.normal s] := by
  unfold globJoin bare
  split <;> rfl

theorem bare_join (path : Path) (s : Str) : bare (globJoin path s) = bare path ++ [.normal s] := by
  rw [globJoin_bare]
  unfold bare
  rw [if_neg]
  split
  · simp
  · intro h
    have := congrArg List.getLast? h
    simp at this

theorem leadsTo_cons {n : GlobNode} {s : Str} {ns : List Str} {m : GlobNode} : LeadsTo n (s :: ns) m ↔ ∃ es c, n = .dir es ∧ HasEntry es s c ∧ LeadsTo c ns m := by
  constructor
  · intro h
    cases h with
    | down h1 h2 => exact ⟨_, _, rfl, h1, h2⟩
  · rintro ⟨es, c, rfl, h1, h2⟩
    exact .down h1 h2

theorem leadsTo_append {n : GlobNode} {a c : List Str} {m : GlobNode} : LeadsTo n (a ++ c) m ↔ ∃ k, LeadsTo n a k ∧ LeadsTo k c m := by
  induction a generalizing n with
  | nil =>
    constructor
    · exact fun h => ⟨n, .here, h⟩
    · rintro ⟨k, h1, h2⟩
      cases h1
      exact h2
  | cons s a ih =>
    rw [List.cons_append, leadsTo_cons]
    constructor
    · rintro ⟨es, k, rfl, h1, h2⟩
      obtain ⟨k', h3, h4⟩ := ih.1 h2
      exact ⟨k', .down h1 h3, h4⟩
    · rintro ⟨k, h1, h2⟩
      obtain ⟨es, k', rfl, h3, h4⟩ := leadsTo_cons.1 h1
      exact ⟨es, k', rfl, h3, ih.2 ⟨k, h4, h2⟩⟩

theorem distinct_below {n m : GlobNode} {ns : List Str} (h : DistinctNames n) (hm : LeadsTo n ns m) : DistinctNames m :=
  fun ns' es s a c h1 h2 h3 => h (ns ++ ns') es s a c (leadsTo_append.2 ⟨m, hm, h1⟩) h2 h3

theorem find_some {es : GlobEntries} {s : Str} {n : GlobNode} (h : es.find s = some n) : HasEntry es s n := by
  induction es using GlobEntries.rec (motive_1 := fun _ => True) with
  | file => trivial
  | dir => trivial
  | nil => nomatch h
  | cons t m es _ ih =>
    unfold GlobEntries.find at h
    split at h
    · next e => cases h; subst e; exact .first
    · exact .later (ih h)

theorem find_iff {es : GlobEntries} {s : Str} {n : GlobNode} (hd : ∀ a c, HasEntry es s a → HasEntry es s c → a = c) : es.find s = some n ↔ HasEntry es s n := by
  refine ⟨find_some, fun h => ?_⟩
  cases e : es.find s with
  | some m => rw [hd _ _ (find_some e) h]
  | none =>
    exfalso
    clear hd
    induction h with
    | first => simp [GlobEntries.find] at e
    | later _ ih =>
      unfold GlobEntries.find at e
      split at e
      · nomatch e
      · exact ih e

theorem mem_here {es : GlobEntries} {up : List GlobNode} {path : Path} {name : Str} {spot : GlobSpot} {p : Path} :
    (name, spot, p) ∈ es.here up path ↔ HasEntry es name spot.node ∧ spot.up = up ∧ p = globJoin path name := by
  induction es using GlobEntries.rec (motive_1 := fun _ => True) with
  | file => trivial
  | dir => trivial
  | nil => exact ⟨(fun h => nomatch h), (fun h => nomatch h.1)⟩
  | cons t m es _ ih =>
    unfold GlobEntries.here
    rw [List.mem_cons, ih]
    constructor
    · rintro (h | ⟨h1, h2, h3⟩)
      · cases h; exact ⟨.first, rfl, rfl⟩
      · exact ⟨.later h1, h2, h3⟩
    · rintro ⟨h1, h2, h3⟩
      cases h1 with
      | first => subst h3; subst h2; exact .inl rfl
      | later h1 => exact .inr ⟨h1, h2, h3⟩

theorem mem_under {n : GlobNode} : ∀ {up : List GlobNode} {path : Path} {name : Str} {m : GlobNode} {p : Path},
    (∃ up', (name, ⟨m, up'⟩, p) ∈ n.under up path) ↔ ∃ ns, LeadsTo n (ns ++ [name]) m ∧ p = bare path ++ (ns ++ [name]).map .normal := by
  induction n using GlobNode.rec (motive_2 := fun es => ∀ {up : List GlobNode} {path : Path} {name : Str} {m : GlobNode} {p : Path},
    (∃ up', (name, ⟨m, up'⟩, p) ∈ es.under up path) ↔ ∃ ns s c, HasEntry es s c ∧ LeadsTo c ns m ∧ (s :: ns).getLast? = some name ∧ p = bare path ++ (s :: ns).map .normal) with
  | file =>
    intro up path name m p
    constructor
    · rintro ⟨_, h⟩; nomatch h
    · rintro ⟨ns, h, -⟩
      exfalso
      cases ns with
      | nil => obtain ⟨es, c, h, -⟩ := leadsTo_cons.1 h; nomatch h
      | cons a ns => obtain ⟨es, c, h, -⟩ := leadsTo_cons.1 h; nomatch h
  | dir es ih =>
    intro up path name m p
    rw [GlobNode.under, ih]
    constructor
    · rintro ⟨ns, s, c, h1, h2, h3, h4⟩
      have : (s :: ns).dropLast ++ [name] = s :: ns := by
        rw [List.dropLast_append_getLast? name h3]
      refine ⟨(s :: ns).dropLast, ?_, ?_⟩
      · rw [this]; exact .down h1 h2
      · rw [this]; exact h4
    · rintro ⟨ns, h, e⟩
      cases ns with
      | nil =>
        obtain ⟨es', c, h, h1, h2⟩ := leadsTo_cons.1 h
        cases h
        exact ⟨[], name, c, h1, h2, rfl, e⟩
      | cons s ns =>
        obtain ⟨es', c, h, h1, h2⟩ := leadsTo_cons.1 h
        cases h
        exact ⟨ns ++ [name], s, c, h1, h2, by rw [← List.cons_append, List.getLast?_concat], e⟩
  | nil =>
    rename_i up path name m p
    constructor
    · rintro ⟨_, h⟩; nomatch h
    · rintro ⟨ns, s, c, h, -⟩; nomatch h
  | cons t k es ih1 ih2 =>
    rename_i up path name m p
    rw [GlobEntries.under]
    simp only [List.cons_append, List.mem_cons, List.mem_append]
    constructor
    · rintro ⟨up', h | h | h⟩
      · cases h
        exact ⟨[], t, _, .first, .here, rfl, by rw [globJoin_bare]; rfl⟩
      · obtain ⟨ns, h1, h2⟩ := ih1.1 ⟨up', h⟩
        refine ⟨ns ++ [name], t, k, .first, h1, by rw [← List.cons_append, List.getLast?_concat], ?_⟩
        rw [h2, bare_join]
        simp
      · obtain ⟨ns, s, c, h1, h2, h3, h4⟩ := ih2.1 ⟨up', h⟩
        exact ⟨ns, s, c, .later h1, h2, h3, h4⟩
    · rintro ⟨ns, s, c, h1, h2, h3, h4⟩
      cases h1 with
      | first =>
        rcases List.eq_nil_or_concat ns with rfl | ⟨ns', x, rfl⟩
        · cases h2
          cases h3
          exact ⟨up, .inl (by rw [h4, globJoin_bare]; rfl)⟩
        · have hx : x = name := by
            rw [List.concat_eq_append, ← List.cons_append, List.getLast?_concat] at h3
            exact Option.some.inj h3
          subst hx
          obtain ⟨up', h⟩ := (ih1 (up := up) (path := globJoin path t) (name := x) (m := m) (p := p)).2 ⟨ns', by simpa using h2, by rw [h4, bare_join]; simp⟩
          exact ⟨up', .inr (.inl h)⟩
      | later h1 =>
        obtain ⟨up', h⟩ := ih2.2 ⟨ns, s, c, h1, h2, h3, h4⟩
        exact ⟨up', .inr (.inr h)⟩

/-! ### Paths -/

theorem describesPath_nil {ns : List Str} : DescribesPath [] ns ↔ ns = [] := ⟨fun h => by cases h; rfl, fun h => h ▸ .done⟩

theorem describesPath_name {p : Str} (hp : p ≠ anyDirs) {ps ns : List Str} : DescribesPath (p :: ps) ns ↔ ∃ n ns', ns = n :: ns' ∧ Describes p n ∧ DescribesPath ps ns' := by
  constructor
  · intro h
    cases h with
    | name _ h1 h2 => exact ⟨_, _, rfl, h1, h2⟩
    | skip => exact absurd rfl hp
    | last => exact absurd rfl hp
    | deeper => exact absurd rfl hp
  · rintro ⟨n, ns', rfl, h1, h2⟩
    exact .name hp h1 h2

theorem describesPath_any {ps ns : List Str} (h0 : ps ≠ []) : DescribesPath (anyDirs :: ps) ns ↔ ∃ a c, ns = a ++ c ∧ DescribesPath ps c := by
  constructor
  · intro h
    generalize e : anyDirs :: ps = q at h
    induction h with
    | done => nomatch e
    | name h => cases e; exact absurd rfl h
    | skip _ h => cases e; exact ⟨[], _, rfl, h⟩
    | last => cases e; exact absurd rfl h0
    | deeper _ ih =>
      obtain ⟨a, c, rfl, h⟩ := ih e
      exact ⟨_ :: a, c, rfl, h⟩
  · rintro ⟨a, c, rfl, h⟩
    induction a with
    | nil => exact .skip h0 h
    | cons x a ih => exact .deeper ih

theorem describesPath_last {ns : List Str} : DescribesPath [anyDirs] ns ↔ ns ≠ [] := by
  constructor
  · intro h
    generalize e : [anyDirs] = q at h
    cases h with
    | done => nomatch e
    | name h => cases e; exact absurd rfl h
    | skip h => cases e; exact absurd rfl h
    | last => simp
    | deeper => simp
  · intro h
    induction ns with
    | nil => exact absurd rfl h
    | cons n ns ih =>
      cases ns with
      | nil => exact .last
      | cons m ns => exact .deeper (ih (by simp))

theorem describesPath_twice {ps ns : List Str} : DescribesPath (anyDirs :: anyDirs :: ps) ns ↔ DescribesPath (anyDirs :: ps) ns := by
  rw [describesPath_any (by simp)]
  constructor
  · rintro ⟨a, c, rfl, h⟩
    induction a with
    | nil => exact h
    | cons x a ih => exact .deeper ih
  · exact fun h => ⟨[], ns, rfl, h⟩

/-! ### The walk -/

theorem parse_any {p : Str} {ts : List GlobTok} (h : parseGlob none p = some ts) (hp : '/' ∉ p) : ts = [.anyRec] ↔ p = anyDirs := by
  constructor
  · rintro rfl
    by_contra hne
    exact (parse_fits h hp (.inl hne)).2.1 (by simp)
  · rintro rfl
    rw [parse_stars none (by simp)] at h
    simpa using h.symm

theorem bare_end (path : Path) (ns : List Str) (s : Str) : bare (path ++ (ns ++ [s]).map .normal) = path ++ (ns ++ [s]).map .normal := by
  unfold bare
  rw [if_neg]
  intro h
  have := congrArg List.getLast? h
  rw [List.map_append, ← List.append_assoc] at this
  simp at this

theorem walk_mem {comps : List Str} : ∀ {ps : List (List GlobTok)} {deep : Bool} {spot : GlobSpot} {path f : Path},
    List.Forall₂ (fun p ts => parseGlob none p = some ts) comps ps → (∀ p ∈ comps, '/' ∉ p ∧ p ≠ [] ∧ p.head? ≠ some '.') → DistinctNames spot.node →
    (deep = true ∨ comps ≠ []) →
    (f ∈ globWalk false deep ps spot path ↔ Selects (bare path) spot.node (if deep then anyDirs :: comps else comps) f) := by
  induction comps with
  | nil =>
    intro ps deep spot path f hf _ _ hne
    cases hf
    rcases hne with rfl | hne
    · rw [if_pos rfl]
      unfold globWalk Selects
      simp only [List.mem_map, List.mem_filter, describesPath_last]
      constructor
      · rintro ⟨⟨name, ⟨m, up⟩, p⟩, ⟨h1, h2⟩, rfl⟩
        obtain ⟨ns, h3, h4⟩ := mem_under.1 ⟨up, h1⟩
        exact ⟨ns ++ [name], m, h3, by simp, fun _ => h2, h4⟩
      · rintro ⟨ns, m, h1, h2, h3, rfl⟩
        rcases List.eq_nil_or_concat ns with rfl | ⟨ns, name, rfl⟩
        · exact absurd rfl h2
        · rw [List.concat_eq_append] at *
          obtain ⟨up, h⟩ := (mem_under (up := spot.up) (path := path)).2 ⟨ns, h1, rfl⟩
          exact ⟨_, ⟨h, h3 rfl⟩, rfl⟩
    · exact absurd rfl hne
  | cons p comps ih =>
    intro ps deep spot path f hf hc hd _
    cases hf with
    | @cons _ ts _ ps hp hf =>
    obtain ⟨hp1, hp2, hp3⟩ := hc p List.mem_cons_self
    have hc' := fun q hq => hc q (List.mem_cons_of_mem _ hq)
    have hempty : ps = [] ↔ comps = [] := by
      cases hf <;> simp
    -- what is found in an entry
    have hadd : ∀ (c : GlobSpot) (q : Path) , DistinctNames c.node → bare q = q →
        (f ∈ (if ps = [] then (if (false && !c.node.isDir) then [] else [q]) else globWalk false false ps c q) ↔ Selects q c.node comps f) := by
      intro c q hdc hq
      by_cases h0 : comps = []
      · rw [if_pos (hempty.2 h0)]
        subst h0
        unfold Selects
        simp only [Bool.false_and, Bool.false_eq_true, if_false, List.mem_singleton, describesPath_nil]
        constructor
        · rintro rfl
          exact ⟨[], c.node, .here, rfl, by simp, by simp⟩
        · rintro ⟨ns, n, -, rfl, -, rfl⟩
          simp
      · rw [if_neg (fun h => h0 (hempty.1 h)), ih hf hc' hdc (.inr h0), hq]
        rfl
    have hlast : comps ≠ [] → (p :: comps).getLast? = comps.getLast? := fun h => List.getLast?_cons_of_ne_nil h
    by_cases ha : p = anyDirs
    · have hts := (parse_any hp hp1).2 ha
      subst hts
      subst ha
      have e : globWalk false deep ([.anyRec] :: ps) spot path = globWalk false true ps spot path := by
        cases deep <;> simp [globWalk]
      rw [e, ih hf hc' hd (.inl rfl), if_pos rfl]
      cases deep with
      | false => rfl
      | true =>
        rw [if_pos rfl]
        unfold Selects
        simp only [describesPath_twice, List.getLast?_cons_cons]
    · have hts := fun h => ha ((parse_any hp hp1).1 h)
      obtain ⟨hwf, hrec, hfits⟩ := parse_fits hp hp1 (.inl ha)
      have hm : ∀ n, globMatches ts n = true ↔ Describes p n := fun n => (globMatches_iff hrec n).trans (hfits n)
      -- the condition on the last component
      have hl : ∀ (n : GlobNode), ((p :: comps).getLast? = some anyDirs → n.isDir = true) ↔ (comps.getLast? = some anyDirs → n.isDir = true) := by
        intro n
        by_cases h0 : comps = []
        · subst h0
          simp [ha]
        · rw [hlast h0]
      -- entries of the directory
      have hentry : Selects (bare path) spot.node (p :: comps) f ↔
          ∃ es s c, spot.node = .dir es ∧ HasEntry es s c ∧ Describes p s ∧ Selects (bare path ++ [.normal s]) c comps f := by
        unfold Selects
        simp only [describesPath_name ha, hl]
        constructor
        · rintro ⟨_, n, h1, ⟨s, ns, rfl, h2, h3⟩, h4, rfl⟩
          obtain ⟨es, c, he, h5, h6⟩ := leadsTo_cons.1 h1
          exact ⟨es, s, c, he, h5, h2, ns, n, h6, h3, h4, by simp⟩
        · rintro ⟨es, s, c, he, h5, h2, ns, n, h6, h3, h4, rfl⟩
          exact ⟨s :: ns, n, leadsTo_cons.2 ⟨es, c, he, h5, h6⟩, ⟨s, ns, rfl, h2, h3⟩, h4, by simp⟩
      have hbj : ∀ s, bare (globJoin path s) = globJoin path s := fun s => by rw [bare_join, globJoin_bare]
      cases deep with
      | true =>
        have e : globWalk false true (ts :: ps) spot path = ((spot.node.under spot.up path).filter fun e => globMatches ts e.1).flatMap fun e =>
            if ps = [] then (if (false && !e.2.1.node.isDir) then [] else [e.2.2]) else globWalk false false ps e.2.1 e.2.2 := by
          simp only [globWalk, if_neg hts, if_true]
        rw [e, if_pos rfl]
        simp only [List.mem_flatMap, List.mem_filter, hm]
        constructor
        · rintro ⟨⟨name, ⟨m, up⟩, q⟩, ⟨h1, h2⟩, h3⟩
          obtain ⟨ns, h4, rfl⟩ := mem_under.1 ⟨up, h1⟩
          have h5 := (hadd ⟨m, up⟩ _ (distinct_below hd h4) (bare_end _ _ _)).1 h3
          obtain ⟨ns', n, h6, h7, h8, rfl⟩ := h5
          refine ⟨ns ++ [name] ++ ns', n, leadsTo_append.2 ⟨m, h4, h6⟩, ?_, ?_, by simp⟩
          · rw [describesPath_any (by simp)]
            exact ⟨ns, name :: ns', by simp, .name ha h2 h7⟩
          · rw [List.getLast?_cons_of_ne_nil (by simp)]
            exact (hl n).2 h8
        · rintro ⟨_, n, h1, h2, h3, hfe⟩
          obtain ⟨a, _, rfl, h4⟩ := (describesPath_any (by simp)).1 h2
          obtain ⟨s, ns, rfl, h5, h6⟩ := (describesPath_name ha).1 h4
          rw [show a ++ s :: ns = a ++ [s] ++ ns by simp] at h1
          obtain ⟨m, h7, h8⟩ := leadsTo_append.1 h1
          obtain ⟨up, h9⟩ := (mem_under (up := spot.up) (path := path)).2 ⟨a, h7, rfl⟩
          refine ⟨_, ⟨h9, h5⟩, ?_⟩
          refine (hadd ⟨m, up⟩ _ (distinct_below hd h7) (bare_end (bare path) a s)).2 ⟨ns, n, h8, h6, ?_, by rw [hfe]; simp⟩
          rw [List.getLast?_cons_of_ne_nil (by simp)] at h3
          exact (hl n).1 h3
      | false =>
        rw [if_neg (by simp), hentry]
        cases hlit : globLiteral ts with
        | some s =>
          cases literal_eq hp hp1 hlit
          have e : globWalk false false (ts :: ps) spot path = match spot.child p with
              | some c => if ps = [] then (if (false && !c.node.isDir) then [] else [globJoin path p]) else globWalk false false ps c (globJoin path p)
              | none => [] := by
            simp only [globWalk, if_neg hts, hlit]
            rw [if_neg (by simp), if_neg (by rintro rfl; simp at hp3), if_neg (by rintro rfl; simp at hp3), if_neg hp2]
            cases spot.child p <;> rfl
          rw [e]
          have hs : ∀ n, Describes p n ↔ n = p := fun n => (hfits n).symm.trans (literal_fits hlit n)
          simp only [hs]
          unfold GlobSpot.child
          cases hn : spot.node with
          | file => simp
          | dir es =>
            simp only
            have hd' : ∀ a c, HasEntry es p a → HasEntry es p c → a = c := fun a c h1 h2 => hd [] es p a c (by rw [hn]; exact .here) h1 h2
            constructor
            · intro h
              cases he : es.find p with
              | none => rw [he] at h; nomatch h
              | some c =>
                rw [he] at h
                have hh := (find_iff hd').1 he
                refine ⟨es, p, c, rfl, hh, rfl, ?_⟩
                rw [← globJoin_bare]
                exact (hadd ⟨c, _⟩ _ (distinct_below hd (by rw [hn]; exact .down hh .here)) (hbj p)).1 h
            · rintro ⟨es', s, c, h1, hh, rfl, h2⟩
              cases h1
              rw [(find_iff hd').2 hh]
              rw [← globJoin_bare] at h2
              exact (hadd ⟨c, _⟩ _ (distinct_below hd (by rw [hn]; exact .down hh .here)) (hbj s)).2 h2
        | none =>
          have hdot : ts.head? ≠ some (.char '.') := by
            intro h
            cases p with
            | nil => exact hp2 rfl
            | cons x p =>
              rcases parse_head hp (fun h => hp1 (List.mem_cons_of_mem _ h)) with ⟨ts', rfl, -⟩ | ⟨t, ts', rfl, ht⟩
              · cases h; exact hp3 rfl
              · cases h; exact ht _ rfl
          have e : globWalk false false (ts :: ps) spot path = match spot.node with
              | .file => []
              | .dir es => ((es.here (spot.node :: spot.up) path).filter fun e => globMatches ts e.1).flatMap fun e =>
                  if ps = [] then (if (false && !e.2.1.node.isDir) then [] else [e.2.2]) else globWalk false false ps e.2.1 e.2.2 := by
            simp only [globWalk, if_neg hts, hlit]
            rw [if_neg (by simp)]
            simp only [hdot, false_and, if_false, List.nil_append]
            cases spot.node <;> rfl
          rw [e]
          cases hn : spot.node with
          | file => simp
          | dir es =>
            simp only [List.mem_flatMap, List.mem_filter, hm]
            constructor
            · rintro ⟨⟨name, ⟨c, up⟩, q⟩, ⟨h1, h2⟩, h3⟩
              obtain ⟨h4, h5, rfl⟩ := mem_here.1 h1
              refine ⟨es, name, c, rfl, h4, h2, ?_⟩
              rw [← globJoin_bare]
              exact (hadd ⟨c, up⟩ _ (distinct_below hd (by rw [hn]; exact .down h4 .here)) (hbj name)).1 h3
            · rintro ⟨es', s, c, h1, hh, h2, h3⟩
              cases h1
              rw [← globJoin_bare] at h3
              exact ⟨(s, ⟨c, _⟩, globJoin path s), ⟨mem_here.2 ⟨hh, rfl, rfl⟩, h2⟩,
                (hadd ⟨c, _⟩ _ (distinct_below hd (by rw [hn]; exact .down hh .here)) (hbj s)).2 h3⟩

/-! ### The whole pattern -/

theorem parse_before {p rest : Str} (h : WellFormed p) (hr : ∃ ts, parseGlob (some '/') rest = some ts) (prev : Option Char) :
    ∃ ts, parseGlob prev (p ++ '/' :: rest) = some ts := by
  induction h generalizing prev with
  | done =>
    obtain ⟨ts, e⟩ := hr
    exact ⟨_, by rw [List.nil_append, parse_char prev (by decide) (by decide) (by decide), e]; rfl⟩
  | @same c p h1 h2 _ ih =>
    by_cases hc : c = '?'
    · subst hc
      obtain ⟨ts, e⟩ := ih (some '?')
      exact ⟨_, by rw [List.cons_append, parse_one, e]; rfl⟩
    · obtain ⟨ts, e⟩ := ih (some c)
      exact ⟨_, by rw [List.cons_append, parse_char prev hc h1 h2, e]; rfl⟩
  | @star p h _ ih =>
    obtain ⟨ts, e⟩ := ih (some '*')
    have hh : (p ++ '/' :: rest).head? ≠ some '*' := by
      cases p with
      | nil => simp
      | cons c p => simpa using h
    exact ⟨_, by rw [List.cons_append, parse_star prev hh, e]; rfl⟩
  | @among x body p hx hb _ ih =>
    obtain ⟨ts, e⟩ := ih (some ']')
    have := parse_among prev hx hb (s := p ++ '/' :: rest)
    exact ⟨_, by rw [show ('[' :: x :: body ++ ']' :: p) ++ '/' :: rest = '[' :: x :: body ++ ']' :: (p ++ '/' :: rest) by simp, this, e]; rfl⟩
  | @notAmong x body p hb _ ih =>
    obtain ⟨ts, e⟩ := ih (some ']')
    have := parse_not prev (x := x) hb (s := p ++ '/' :: rest)
    exact ⟨_, by rw [show ('[' :: '!' :: x :: body ++ ']' :: p) ++ '/' :: rest = '[' :: '!' :: x :: body ++ ']' :: (p ++ '/' :: rest) by simp, this, e]; rfl⟩

/-- A component that the crate accepts. -/
def GoodComp (p : Str) : Prop := p = anyDirs ∨ WellFormed p

theorem parse_join {cs : List Str} (h : ∀ p ∈ cs, GoodComp p) {prev : Option Char} (hp : prev = none ∨ prev = some '/') :
    ∃ ts, parseGlob prev (joinStr (str% "/") cs) = some ts := by
  induction cs generalizing prev with
  | nil => exact ⟨_, parse_nil prev⟩
  | cons p cs ih =>
    cases cs with
    | nil =>
      rcases h p List.mem_cons_self with rfl | h
      · exact ⟨[.anyRec], by rw [show joinStr (str% "/") [anyDirs] = '*' :: '*' :: [] from rfl, parse_stars prev (by simp), if_pos ⟨rfl, hp⟩]⟩
      · exact parse_wellFormed h prev
    | cons q cs =>
      have hr := ih (fun x hx => h x (List.mem_cons_of_mem _ hx)) (prev := some '/') (.inr rfl)
      have e : joinStr (str% "/") (p :: q :: cs) = p ++ '/' :: joinStr (str% "/") (q :: cs) := by simp [joinStr]
      rw [e]
      rcases h p List.mem_cons_self with rfl | h
      · obtain ⟨ts, er⟩ := hr
        refine ⟨.anyRec :: ts, ?_⟩
        rw [show anyDirs ++ '/' :: joinStr (str% "/") (q :: cs) = '*' :: '*' :: '/' :: joinStr (str% "/") (q :: cs) from rfl, parseGlob, if_pos ⟨hp, rfl⟩, er]
        · rfl
        · intro h; cases h
      · exact parse_before h hr prev

theorem parse_comp {p : Str} (hp : '/' ∉ p) : (∃ ts, parseGlob none p = some ts) ↔ GoodComp p := by
  constructor
  · rintro ⟨ts, h⟩
    by_cases ha : p = anyDirs
    · exact .inl ha
    · exact .inr (parse_fits h hp (.inl ha)).1
  · rintro (rfl | h)
    · exact ⟨[.anyRec], by rw [parse_stars none (by simp)]; simp⟩
    · exact parse_wellFormed h none

theorem splitChar_join {cs : List Str} (h0 : cs ≠ []) (h : ∀ p ∈ cs, '/' ∉ p) : splitChar '/' (joinStr (str% "/") cs) = cs := by
  induction cs with
  | nil => exact absurd rfl h0
  | cons p cs ih =>
    have hp := h p List.mem_cons_self
    cases cs with
    | nil => exact splitChar_no hp
    | cons q cs =>
      have e : joinStr (str% "/") (p :: q :: cs) = p ++ '/' :: joinStr (str% "/") (q :: cs) := by simp [joinStr]
      rw [e, splitChar_cons hp, ih (by simp) (fun x hx => h x (List.mem_cons_of_mem _ hx))]

/-! ### The repository -/

theorem parse_plain {s : Str} (h : '*' ∉ s ∧ '?' ∉ s ∧ '[' ∉ s) (prev : Option Char) : parseGlob prev s = some (s.map .char) := by
  induction s generalizing prev with
  | nil => exact parse_nil prev
  | cons c s ih =>
    simp only [List.mem_cons, not_or] at h
    rw [parse_char prev (fun e => h.2.1.1 e.symm) (fun e => h.1.1 e.symm) (fun e => h.2.2.1 e.symm), ih ⟨h.1.2, h.2.1.2, h.2.2.2⟩]
    rfl

theorem literal_plain (s : Str) : globLiteral (s.map .char) = some s := by
  induction s with
  | nil => rfl
  | cons c s ih => rw [List.map_cons, globLiteral, ih]; rfl

theorem plain_not_any (s : Str) : s.map GlobTok.char ≠ [.anyRec] := by
  cases s <;> simp

theorem walk_child {s : Str} (h : s ≠ ['.'] ∧ s ≠ ['.', '.'] ∧ s ≠ []) {ps : List (List GlobTok)} (h0 : ps ≠ []) {spot c : GlobSpot} (hc : spot.child s = some c) (dirs : Bool) (path : Path) :
    globWalk dirs false (s.map .char :: ps) spot path = globWalk dirs false ps c (globJoin path s) := by
  simp only [globWalk, if_neg (plain_not_any s), literal_plain, if_neg h.1, if_neg h.2.1, if_neg h.2.2, hc, if_neg h0]
  rfl

theorem walk_parent {ps : List (List GlobTok)} (h0 : ps ≠ []) {spot : GlobSpot} (hd : spot.node.isDir = true) (dirs : Bool) (path : Path) :
    globWalk dirs false ([.char '.', .char '.'] :: ps) spot path = globWalk dirs false ps spot.parent (bare path ++ [.parent]) := by
  have hl : globLiteral [.char '.', .char '.'] = some ['.', '.'] := rfl
  simp only [globWalk, if_neg (show ¬ ([GlobTok.char '.', .char '.'] = [.anyRec]) by simp), hl, if_neg h0, if_pos hd]
  rw [if_neg (by simp), if_neg (by simp), if_pos trivial]
  unfold bare
  split <;> rfl

theorem walk_cur {ps : List (List GlobTok)} (h0 : ps ≠ []) {spot : GlobSpot} (hd : spot.node.isDir = true) (dirs : Bool) (path : Path) :
    globWalk dirs false ([.char '.'] :: ps) spot path = globWalk dirs false ps spot path := by
  have hl : globLiteral [.char '.'] = some ['.'] := rfl
  simp only [globWalk, if_neg (show ¬ ([GlobTok.char '.'] = [.anyRec]) by simp), hl, if_neg h0, if_pos hd]
  rw [if_neg (by simp), if_pos trivial]

/-- The tokens of the components of a path. -/
def plainToks (base : Path) : List (List GlobTok) := base.map fun c => (Path.compStr c).map .char

theorem walk_goes {spot t : GlobSpot} {base : Path} (h : Goes spot base t) {ps : List (List GlobTok)} (h0 : ps ≠ []) (dirs : Bool) (path : Path) :
    globWalk dirs false (plainToks base ++ ps) spot path = globWalk dirs false ps t (if base = [] then path else bare path ++ base) := by
  induction h generalizing path with
  | stop => rfl
  | @parent s t p hd _ ih =>
    rw [show plainToks (.parent :: p) ++ ps = [.char '.', .char '.'] :: (plainToks p ++ ps) from rfl, walk_parent (by simp [h0]) hd, ih, if_neg (List.cons_ne_nil Comp.parent p)]
    have e : bare (bare path ++ [.parent]) = bare path ++ [.parent] := by
      unfold bare
      split
      · simp
      · rw [if_neg]
        intro h
        have := congrArg List.getLast? h
        simp at this
    split
    · next hp => rw [hp]
    · rw [e]; simp
  | @name s c t n p hn hc _ ih =>
    rw [show plainToks (.normal n :: p) ++ ps = n.map .char :: (plainToks p ++ ps) from rfl, walk_child ⟨hn.dots.2.1, hn.dots.2.2, hn.dots.1⟩ (by simp [h0]) hc, ih,
      if_neg (List.cons_ne_nil (Comp.normal n) p), bare_join, globJoin_bare]
    split
    · next hp => rw [hp]
    · simp

theorem goes_comps {spot t : GlobSpot} {base : Path} (h : Goes spot base t) :
    ∀ c ∈ base, '/' ∉ Path.compStr c ∧ Path.compStr c ≠ [] ∧ ('*' ∉ Path.compStr c ∧ '?' ∉ Path.compStr c ∧ '[' ∉ Path.compStr c) ∧ c ≠ .root ∧ c ≠ .cur := by
  induction h with
  | stop => simp
  | parent _ _ ih =>
    intro c hc
    rcases List.mem_cons.1 hc with rfl | hc
    · simp [Path.compStr]
    · exact ih c hc
  | name hn _ _ ih =>
    intro c hc
    rcases List.mem_cons.1 hc with rfl | hc
    · exact ⟨hn.slash, hn.dots.1, hn.wild, by simp, by simp⟩
    · exact ih c hc

theorem plain_good {s : Str} (h : '*' ∉ s ∧ '?' ∉ s ∧ '[' ∉ s) : WellFormed s := by
  induction s with
  | nil => exact .done
  | cons c s ih =>
    simp only [List.mem_cons, not_or] at h
    exact .same (fun e => h.1.1 e.symm) (fun e => h.2.2.1 e.symm) (ih ⟨h.1.2, h.2.1.2, h.2.2.2⟩)

theorem joinStr_append {a c : List Str} (ha : a ≠ []) (hc : c ≠ []) : joinStr (str% "/") (a ++ c) = joinStr (str% "/") a ++ '/' :: joinStr (str% "/") c := by
  induction a with
  | nil => exact absurd rfl ha
  | cons x a ih =>
    cases a with
    | nil =>
      cases c with
      | nil => exact absurd rfl hc
      | cons y c => simp [joinStr]
    | cons y a =>
      have := ih (by simp)
      simp only [List.cons_append] at this ⊢
      rw [joinStr, this, joinStr]
      simp

theorem mapM_parse {comps : List Str} {ps : List (List GlobTok)} (h : List.Forall₂ (fun p ts => parseGlob none p = some ts) comps ps) :
    comps.mapM (parseGlob none) = some ps := by
  induction h with
  | nil => rfl
  | cons h _ ih => simp [List.mapM_cons, h, ih]

theorem forall_parse {comps : List Str} (h : ∀ p ∈ comps, GoodComp p) (hs : ∀ p ∈ comps, '/' ∉ p) :
    ∃ ps, List.Forall₂ (fun p ts => parseGlob none p = some ts) comps ps := by
  induction comps with
  | nil => exact ⟨[], .nil⟩
  | cons p comps ih =>
    obtain ⟨ts, h1⟩ := (parse_comp (hs p List.mem_cons_self)).2 (h p List.mem_cons_self)
    obtain ⟨ps, h2⟩ := ih (fun q hq => h q (List.mem_cons_of_mem _ hq)) (fun q hq => hs q (List.mem_cons_of_mem _ hq))
    exact ⟨ts :: ps, .cons h1 h2⟩

theorem joinStr_last {cs : List Str} (h0 : cs ≠ []) (h : ∀ p ∈ cs, '/' ∉ p ∧ p ≠ []) : (joinStr (str% "/") cs).getLast? ≠ some '/' ∧ joinStr (str% "/") cs ≠ [] := by
  induction cs with
  | nil => exact absurd rfl h0
  | cons p cs ih =>
    obtain ⟨h1, h2⟩ := h p List.mem_cons_self
    cases cs with
    | nil =>
      refine ⟨fun h => h1 (List.mem_of_getLast? h), h2⟩
    | cons q cs =>
      have := ih (by simp) (fun x hx => h x (List.mem_cons_of_mem _ hx))
      have e : joinStr (str% "/") (p :: q :: cs) = p ++ '/' :: joinStr (str% "/") (q :: cs) := by simp [joinStr]
      rw [e]
      refine ⟨?_, by simp⟩
      rw [List.getLast?_append_of_ne_nil _ (by simp), List.getLast?_cons_of_ne_nil this.2]
      exact this.1

theorem splitTerminator_join {cs : List Str} (h0 : cs ≠ []) (h : ∀ p ∈ cs, '/' ∉ p ∧ p ≠ []) : splitTerminator (joinStr (str% "/") cs) = cs := by
  unfold splitTerminator
  simp only [splitChar_join h0 (fun p hp => (h p hp).1)]
  rw [if_neg]
  intro hl
  exact (h [] (List.mem_of_getLast? hl)).2 rfl

theorem globOn_relative {d : GlobDisk} {cs : List Str} (h0 : cs ≠ []) (h : ∀ p ∈ cs, '/' ∉ p ∧ p ≠ []) {ps : List (List GlobTok)}
    (hp : List.Forall₂ (fun p ts => parseGlob none p = some ts) cs ps) (hg : ∀ p ∈ cs, GoodComp p) :
    globOn d (joinStr (str% "/") cs) = some (globWalk false false ps d.cwd [.cur]) := by
  obtain ⟨ts, e⟩ := parse_join hg (prev := none) (.inl rfl)
  obtain ⟨hl, -⟩ := joinStr_last h0 h
  have hh : ∀ r, joinStr (str% "/") cs ≠ '/' :: r := by
    intro r hr
    cases cs with
    | nil => exact h0 rfl
    | cons p cs =>
      obtain ⟨h1, h2⟩ := h p List.mem_cons_self
      cases p with
      | nil => exact h2 rfl
      | cons c p =>
        apply h1
        cases cs with
        | nil => cases hr; exact List.mem_cons_self
        | cons q cs => rw [joinStr] at hr; cases hr; exact List.mem_cons_self
  unfold globOn
  rw [e, splitTerminator_join h0 h, mapM_parse hp]
  simp only [hl, decide_false]
  generalize joinStr (str% "/") cs = s at *
  cases s with
  | nil => rfl
  | cons c s =>
    by_cases hc : c = '/'
    · subst hc; exact absurd rfl (hh s)
    · simp

theorem globOn_absolute {d : GlobDisk} {cs : List Str} (h0 : cs ≠ []) (h : ∀ p ∈ cs, '/' ∉ p ∧ p ≠ []) {ps : List (List GlobTok)}
    (hp : List.Forall₂ (fun p ts => parseGlob none p = some ts) cs ps) (hg : ∀ p ∈ cs, GoodComp p) :
    globOn d ('/' :: joinStr (str% "/") cs) = some (globWalk false false ps ⟨d.root, []⟩ [.root]) := by
  obtain ⟨ts, e⟩ := parse_join hg (prev := some '/') (.inr rfl)
  obtain ⟨hl, hn⟩ := joinStr_last h0 h
  have hl' : ('/' :: joinStr (str% "/") cs).getLast? ≠ some '/' := by
    rw [List.getLast?_cons_of_ne_nil hn]; exact hl
  unfold globOn
  rw [parse_char none (by decide) (by decide) (by decide), e]
  simp only [hl', decide_false, splitTerminator_join h0 h, mapM_parse hp]
  rfl

theorem repo_walk {d : GlobDisk} {base : Path} {repo : GlobSpot} (hr : RepoAt d base repo) {comps : List Str} {ps : List (List GlobTok)} (h0 : comps ≠ [])
    (hn : ∀ p ∈ comps, '/' ∉ p ∧ p ≠ []) (hg : ∀ p ∈ comps, GoodComp p) (hps : List.Forall₂ (fun p ts => parseGlob none p = some ts) comps ps) :
    ∃ path, bare path = undotted base ∧ (path = base ∨ path = undotted base) ∧
      globOn d (base.display ++ str% "/" ++ joinStr (str% "/") comps) = some (globWalk false false ps repo path) := by
  have hps0 : ps ≠ [] := by
    rintro rfl
    cases hps
    exact h0 rfl
  have hbase : ∀ p : Path, (∀ c ∈ p, '*' ∉ Path.compStr c ∧ '?' ∉ Path.compStr c ∧ '[' ∉ Path.compStr c) →
      List.Forall₂ (fun p ts => parseGlob none p = some ts) (p.map Path.compStr ++ comps) (plainToks p ++ ps) := by
    intro p hp
    refine List.rel_append ?_ hps
    induction p with
    | nil => exact .nil
    | cons c p ih => exact .cons (parse_plain (hp c List.mem_cons_self) none) (ih (fun x hx => hp x (List.mem_cons_of_mem _ hx)))
  have hgood : ∀ p : Path, (∀ c ∈ p, '*' ∉ Path.compStr c ∧ '?' ∉ Path.compStr c ∧ '[' ∉ Path.compStr c) → ∀ q ∈ p.map Path.compStr ++ comps, GoodComp q := by
    intro p hp q hq
    rcases List.mem_append.1 hq with hq | hq
    · obtain ⟨c, hc, rfl⟩ := List.mem_map.1 hq
      exact .inr (plain_good (hp c hc))
    · exact hg q hq
  have hsl : ∀ p : Path, (∀ c ∈ p, '/' ∉ Path.compStr c ∧ Path.compStr c ≠ []) → ∀ q ∈ p.map Path.compStr ++ comps, '/' ∉ q ∧ q ≠ [] := by
    intro p hp q hq
    rcases List.mem_append.1 hq with hq | hq
    · obtain ⟨c, hc, rfl⟩ := List.mem_map.1 hq
      exact hp c hc
    · exact hn q hq
  have hdisp : ∀ p : Path, p ≠ [] → p ≠ [.root] → p.display ++ str% "/" ++ joinStr (str% "/") comps = joinStr (str% "/") (p.map Path.compStr ++ comps) := by
    intro p h1 h2
    have e : p.display = joinStr (str% "/") (p.map Path.compStr) := by
      unfold Path.display
      split
      · exact absurd rfl h2
      · rfl
    rw [e, joinStr_append (by simpa using h1) h0]
    simp
  cases hr with
  | @absolute p t hp hgo =>
    have hc := goes_comps hgo
    refine ⟨.root :: p, by simp [bare, undotted], .inl rfl, ?_⟩
    rw [hdisp _ (by simp) (by simpa using hp)]
    have e : joinStr (str% "/") ((Comp.root :: p).map Path.compStr ++ comps) = '/' :: joinStr (str% "/") (p.map Path.compStr ++ comps) := by
      rw [show (Comp.root :: p).map Path.compStr ++ comps = [[]] ++ (p.map Path.compStr ++ comps) from rfl, joinStr_append (by simp) (by simp [h0])]
      rfl
    rw [e, globOn_absolute (by simp [h0]) (hsl p (fun c h => ⟨(hc c h).1, (hc c h).2.1⟩)) (hbase p (fun c h => (hc c h).2.2.1)) (hgood p (fun c h => (hc c h).2.2.1)),
      walk_goes hgo hps0, if_neg hp]
    rfl
  | relative hp hgo =>
    have hc := goes_comps hgo
    have hu : undotted base = base := by
      cases base with
      | nil => rfl
      | cons c base =>
        cases c with
        | cur => exact absurd rfl (hc .cur List.mem_cons_self).2.2.2.2
        | _ => rfl
    have hb : bare base = base := by
      unfold bare
      rw [if_neg]
      rintro rfl
      exact absurd rfl (hc .cur List.mem_cons_self).2.2.2.2
    refine ⟨base, by rw [hb, hu], .inl rfl, ?_⟩
    rw [hdisp _ hp (by rintro rfl; exact absurd rfl (hc .root List.mem_cons_self).2.2.2.1),
      globOn_relative (by simp [h0]) (hsl base (fun c h => ⟨(hc c h).1, (hc c h).2.1⟩)) (hbase base (fun c h => (hc c h).2.2.1)) (hgood base (fun c h => (hc c h).2.2.1)),
      walk_goes hgo hps0, if_neg hp]
    rfl
  | @current p t hcwd hgo =>
    have hc := goes_comps hgo
    have hb : bare (if p = [] then [.cur] else p) = p := by
      split
      · next h => rw [h]; rfl
      · unfold bare
        rw [if_neg]
        rintro rfl
        exact absurd rfl (hc .cur List.mem_cons_self).2.2.2.2
    have hc' : ∀ c ∈ Comp.cur :: p, '/' ∉ Path.compStr c ∧ Path.compStr c ≠ [] ∧ ('*' ∉ Path.compStr c ∧ '?' ∉ Path.compStr c ∧ '[' ∉ Path.compStr c) := by
      intro c h
      rcases List.mem_cons.1 h with rfl | h
      · simp [Path.compStr]
      · exact ⟨(hc c h).1, (hc c h).2.1, (hc c h).2.2.1⟩
    refine ⟨if p = [] then [.cur] else p, hb, ?_, ?_⟩
    · split
      · next h => exact .inl (by rw [h])
      · exact .inr rfl
    rw [hdisp _ (by simp) (by simp),
      globOn_relative (by simp) (hsl (.cur :: p) (fun c h => ⟨(hc' c h).1, (hc' c h).2.1⟩)) (hbase (.cur :: p) (fun c h => (hc' c h).2.2)) (hgood (.cur :: p) (fun c h => (hc' c h).2.2)),
      show plainToks (.cur :: p) ++ ps = [.char '.'] :: (plainToks p ++ ps) from rfl, walk_cur (by simp [hps0]) hcwd, walk_goes hgo hps0]
    rfl

/-- C98: a pattern finds what it describes.  Below a repository whose path has no wildcards, an ordinary pattern is accepted, and the paths found are those of the
files and directories whose names, from the repository on, the components of the pattern describe. -/
theorem C98_found {d : GlobDisk} {base : Path} {repo : GlobSpot} (hr : RepoAt d base repo) (hd : DistinctNames repo.node) {piece : Str} {comps : List Str}
    (ho : Ordinary piece comps) :
    ∃ l, globOn d (base.display ++ str% "/" ++ piece) = some l ∧ ∀ f, f ∈ l ↔ Selects (undotted base) repo.node comps f := by
  obtain ⟨rfl, h0, hn, hg⟩ := ho
  obtain ⟨ps, hps⟩ := forall_parse hg (fun p hp => (hn p hp).1)
  obtain ⟨path, h1, -, h2⟩ := repo_walk hr h0 (fun p hp => ⟨(hn p hp).1, (hn p hp).2.1⟩) hg hps
  refine ⟨_, h2, fun f => ?_⟩
  have := walk_mem (path := path) (f := f) (deep := false) hps hn hd (.inr h0)
  rwa [h1, if_neg Bool.false_ne_true] at this

/-- C98: a pattern is refused if, and only if, one of its components is not well formed: two stars next to something else, or a bracket that is not closed. -/
theorem C98_refused (d : GlobDisk) {cs : List Str} (h0 : cs ≠ []) (h : ∀ p ∈ cs, '/' ∉ p ∧ p ≠ []) :
    globOn d (joinStr (str% "/") cs) = none ↔ ∃ p ∈ cs, p ≠ anyDirs ∧ ¬ WellFormed p := by
  by_cases hg : ∀ p ∈ cs, GoodComp p
  · obtain ⟨ps, hps⟩ := forall_parse hg (fun p hp => (h p hp).1)
    rw [globOn_relative h0 h hps hg]
    refine ⟨(fun h => nomatch h), ?_⟩
    rintro ⟨p, hp, h1, h2⟩
    exact absurd (hg p hp) (fun h => h.elim h1 h2)
  · simp only [not_forall] at hg
    obtain ⟨p, hp, hg⟩ := hg
    refine ⟨fun _ => ⟨p, hp, fun h => hg (.inl h), fun h => hg (.inr h)⟩, fun _ => ?_⟩
    have hm : ∀ cs : List Str, p ∈ cs → cs.mapM (parseGlob none) = none := by
      intro cs hp'
      induction cs with
      | nil => nomatch hp'
      | cons q cs ih =>
        rw [List.mapM_cons]
        cases e : parseGlob none q with
        | none => rfl
        | some ts =>
          rcases List.mem_cons.1 hp' with rfl | hp'
          · exact absurd ((parse_comp (h p hp).1).1 ⟨ts, e⟩) hg
          · show (do let y ← cs.mapM (parseGlob none); pure (ts :: y)) = none
            rw [ih hp']
            rfl
    have hh : ∀ r, joinStr (str% "/") cs ≠ '/' :: r := by
      intro r hr
      cases cs with
      | nil => exact h0 rfl
      | cons p cs =>
        obtain ⟨h1, h2⟩ := h p List.mem_cons_self
        cases p with
        | nil => exact h2 rfl
        | cons c p =>
          apply h1
          cases cs with
          | nil => cases hr; exact List.mem_cons_self
          | cons q cs => rw [joinStr] at hr; cases hr; exact List.mem_cons_self
    have hsp := splitTerminator_join h0 h
    unfold globOn
    cases parseGlob none (joinStr (str% "/") cs) with
    | none => rfl
    | some ts =>
      generalize joinStr (str% "/") cs = s at *
      cases s with
      | nil => simp only [hsp, hm cs hp]; rfl
      | cons c s =>
        by_cases hc : c = '/'
        · subst hc; exact absurd rfl (hh s)
        · simp only [hsp, hm cs hp]
          simp

variable {W : World}

theorem listLoop_many (base : Path) (maxFiles : Nat) : ∀ (ps : List Str) (acc : List Path) (s : Run W),
    (∀ p ∈ ps, ∃ l : List Path, W.glob s.state (base.display ++ str% "/" ++ p) = .ok (l.map .ok)) →
    (∃ files s', listLoop base maxFiles ps acc s = (.ok files, s')) ∨ ∃ n s', maxFiles < n ∧
      listLoop base maxFiles ps acc s = (.err (str% "Found too many files. Found: " ++ natToStr n ++ str% ", Max: " ++ natToStr maxFiles), s') := by
  intro ps
  induction ps with
  | nil => exact fun acc s _ => .inl ⟨acc, s, rfl⟩
  | cons p ps ih =>
    intro acc s h
    obtain ⟨l, hl⟩ := h p List.mem_cons_self
    have hc : collectPaths (l.map .ok) = .ok l := by
      clear hl
      induction l with
      | nil => rfl
      | cons x l ih => rw [List.map_cons, collectPaths, ih]; rfl
    have e : runGlob (base.display ++ str% "/" ++ p) s = (.ok l, ⟨s.state, s.log ++ [.glob (base.display ++ str% "/" ++ p)]⟩) := by
      unfold runGlob
      simp only [hl, hc]
    rw [listLoop, Act.bind_eq, e]
    simp only
    split
    · next hgt => exact .inr ⟨_, _, hgt, rfl⟩
    · exact ih _ _ (fun q hq => h q (List.mem_cons_of_mem _ hq))

theorem listed_wanted {disk : W.State → GlobDisk} (hW : OnDisk W disk) {base : Path} {pattern : Str} {maxFiles : Nat} {s : W.State} {repo : GlobSpot}
    (hr : RepoAt (disk s) base repo) (hd : DistinctNames repo.node) (ho : ∀ p ∈ splitChar ',' pattern, ∃ comps, Ordinary p comps)
    {files : List Path} (h : Listed W s base pattern maxFiles files) :
    files.Pairwise (fun a c => Path.cmp a c = .lt) ∧ ∀ f, f ∈ files ↔ Wanted base repo.node (splitChar ',' pattern) f := by
  obtain ⟨ps, ms, hp, hf, -, hs, hm⟩ := h
  cases pieces_unique hp (splitChar_pieces pattern)
  refine ⟨hs, fun f => (hm f).trans ?_⟩
  clear hm hs hp
  unfold Wanted
  unfold Found at hf
  generalize splitChar ',' pattern = ps at *
  induction hf with
  | nil => simp
  | @cons p m ps ms hpm _ ih =>
    obtain ⟨all, h1, rfl⟩ := hpm
    obtain ⟨comps, hc⟩ := ho p List.mem_cons_self
    obtain ⟨l, h2, h3⟩ := C98_found hr hd hc
    have h4 := (hW s _).1 l h2
    rw [h1] at h4
    have h5 : all = l := by
      have := Except.ok.inj h4
      exact List.map_injective_iff.2 (fun a b h => Except.ok.inj h) this
    subst h5
    rw [List.flatten_cons, List.mem_append, ih (fun q hq => ho q (List.mem_cons_of_mem _ hq))]
    simp only [List.mem_filter, decide_eq_true_eq, List.mem_cons, exists_eq_or_imp, h3]
    constructor
    · rintro (⟨h, hn⟩ | ⟨hn, h⟩)
      · exact ⟨hn, .inl ⟨comps, hc, h⟩⟩
      · exact ⟨hn, .inr h⟩
    · rintro ⟨hn, ⟨comps', hc', h⟩ | h⟩
      · have e : comps' = comps := by
          rw [← splitChar_join hc'.some_ (fun p hp => (hc'.names p hp).1), hc'.split, ← hc.split, splitChar_join hc.some_ (fun p hp => (hc.names p hp).1)]
        subst e
        exact .inl ⟨h, hn⟩
      · exact .inr ⟨hn, h⟩

/-- C98: listing the files of a repository on a disk gives, in order and each once, the files that one of the ordinary patterns describes, except those called
`mod.rs`; or they are too many. -/
theorem C98_lists {disk : W.State → GlobDisk} (hW : OnDisk W disk) (base : Path) (pattern : Str) (maxFiles : Nat) (s : Run W) {repo : GlobSpot}
    (hr : RepoAt (disk s.state) base repo) (hd : DistinctNames repo.node) {ps : List Str} (hp : Pieces pattern ps) (ho : ∀ p ∈ ps, ∃ comps, Ordinary p comps) :
    (∃ files s', listFiles base pattern maxFiles s = (.ok files, s') ∧ files.Pairwise (fun a c => Path.cmp a c = .lt) ∧ ∀ f, f ∈ files ↔ Wanted base repo.node ps f)
    ∨ ∃ n s', maxFiles < n ∧ listFiles base pattern maxFiles s = (.err (str% "Found too many files. Found: " ++ natToStr n ++ str% ", Max: " ++ natToStr maxFiles), s') := by
  have hglob : ∀ p ∈ ps, ∃ l : List Path, W.glob s.state (base.display ++ str% "/" ++ p) = .ok (l.map .ok) := by
    intro p hpm
    obtain ⟨comps, hc⟩ := ho p hpm
    obtain ⟨l, h1, -⟩ := C98_found hr hd hc
    exact ⟨l, (hW s.state _).1 l h1⟩
  cases pieces_unique hp (splitChar_pieces pattern)
  rcases listLoop_many base maxFiles _ [] s hglob with ⟨files, s', h⟩ | ⟨n, s', hn, h⟩
  · left
    have hok : ∃ fs s', listFiles base pattern maxFiles s = (.ok fs, s') := by
      refine ⟨dedup (stableSort pathLess files), s', ?_⟩
      unfold listFiles
      rw [Act.bind_eq, h]
      rfl
    obtain ⟨fs, s', hfs⟩ := hok
    obtain ⟨hl, -⟩ := (C38_listed base pattern maxFiles s s' fs).1 hfs
    exact ⟨fs, s', hfs, listed_wanted hW hr hd ho hl⟩
  · right
    refine ⟨n, s', hn, ?_⟩
    unfold listFiles
    rw [Act.bind_eq, h]

/-- C98: with ordinary patterns, all files listed are in the repository. -/
theorem C98_inside {disk : W.State → GlobDisk} (hW : OnDisk W disk) {base : Path} {pattern : Str} {maxFiles : Nat} {s s' : Run W} {repo : GlobSpot}
    (hr : RepoAt (disk s.state) base repo) (hd : DistinctNames repo.node) {ps : List Str} (hp : Pieces pattern ps) (ho : ∀ p ∈ ps, ∃ comps, Ordinary p comps)
    {files : List Path} (h : listFiles base pattern maxFiles s = (.ok files, s')) :
    ∀ f ∈ files, ∃ ns n, LeadsTo repo.node ns n ∧ f = undotted base ++ ns.map .normal := by
  cases pieces_unique hp (splitChar_pieces pattern)
  intro f hf
  obtain ⟨-, h2⟩ := listed_wanted hW hr hd ho ((C38_listed base pattern maxFiles s s' files).1 h).1
  obtain ⟨-, piece, -, comps, -, ns, n, h3, -, -, h4⟩ := (h2 f).1 hf
  exact ⟨ns, n, h3, h4⟩

theorem tok_dotQuestion : parseGlob none (str% ".?") = some [.char '.', .anyChar] := by
  rw [parse_char none (by decide) (by decide) (by decide), parse_one, parse_nil]; rfl

theorem glob_climb {d : GlobDisk} {base : Path} {repo : GlobSpot} (hr : RepoAt d base repo) (hdir : repo.node.isDir = true) {name : Str} (hs : NoMeaning name)
    {c : GlobSpot} (hc : repo.parent.child name = some c) :
    ∃ l, globOn d (base.display ++ str% "/" ++ (str% ".?/" ++ name)) = some l ∧
      ∃ pre, (pre = base ∨ pre = undotted base) ∧ pre ++ [.parent, .normal name] ∈ l := by
  have hps : List.Forall₂ (fun p ts => parseGlob none p = some ts) [str% ".?", name] [[.char '.', .anyChar], name.map .char] :=
    .cons tok_dotQuestion (.cons (parse_plain hs.wild none) .nil)
  have hg : ∀ p ∈ [str% ".?", name], GoodComp p := by
    intro p hp
    rcases List.mem_cons.1 hp with rfl | hp
    · exact .inr (.same (by decide) (by decide) (.same (by decide) (by decide) .done))
    · cases List.mem_singleton.1 hp
      exact .inr (plain_good hs.wild)
  have hn : ∀ p ∈ [str% ".?", name], '/' ∉ p ∧ p ≠ [] := by
    intro p hp
    rcases List.mem_cons.1 hp with rfl | hp
    · decide
    · cases List.mem_singleton.1 hp
      exact ⟨hs.slash, hs.dots.1⟩
  obtain ⟨path, h1, h2, h3⟩ := repo_walk hr (by simp) hn hg hps
  refine ⟨_, h3, path, h2, ?_⟩
  obtain ⟨es, hes⟩ : ∃ es, repo.node = .dir es := by
    cases he : repo.node with
    | file => rw [he] at hdir; nomatch hdir
    | dir es => exact ⟨es, rfl⟩
  have hl : globLiteral [.char '.', .anyChar] = none := rfl
  have hm : globMatches [.char '.', .anyChar] (str% "..") = true := by decide
  have hw : globWalk false false [name.map .char] repo.parent (path ++ [.parent]) = [globJoin (path ++ [.parent]) name] := by
    simp only [globWalk, if_neg (plain_not_any name), literal_plain, hc, if_neg hs.dots.2.1, if_neg hs.dots.2.2, if_neg hs.dots.1]
    simp
  have hj : globJoin (path ++ [.parent]) name = path ++ [.parent, .normal name] := by
    unfold globJoin
    rw [if_neg]
    · simp
    · intro h
      have := congrArg List.getLast? h
      simp at this
  rw [← hj]
  have hgo : globWalk false false [[.char '.', .anyChar], name.map .char] repo path =
      (globWalk false false [name.map .char] repo.parent (path ++ [.parent]) ++ (if globMatches [.char '.', .anyChar] (str% ".") = true then globWalk false false [name.map .char] repo path else [])
        ++ ((es.here (repo.node :: repo.up) path).filter fun e => globMatches [.char '.', .anyChar] e.1).flatMap fun e => globWalk false false [name.map .char] e.2.1 e.2.2) := by
    rw [globWalk]
    simp only [if_neg (show ¬ ([GlobTok.char '.', .anyChar] = [.anyRec]) by simp), hl, if_neg (show ¬ ([List.map GlobTok.char name] = []) by simp)]
    rw [if_neg (by simp)]
    rw [hes]
    simp only [List.head?_cons, hm, and_self, if_true, true_and]
  rw [hgo, hw]
  simp

/-- C98 (disagreement): a pattern without `..` leads out of the repository.  The component `.?` describes the name `..` of the directory above, so that `.?/name` is
what is next to the repository, whatever it is. -/
theorem C98_false_climb {disk : W.State → GlobDisk} (hW : OnDisk W disk) {base : Path} {maxFiles : Nat} {s s' : Run W} {repo : GlobSpot} (hr : RepoAt (disk s.state) base repo)
    (hdir : repo.node.isDir = true) {name : Str} (hs : NoMeaning name) (h1 : ',' ∉ name) (h2 : ¬ DotDot name) (h3 : name ≠ str% "mod.rs") {c : GlobSpot}
    (hc : repo.parent.child name = some c) :
    ¬ DotDot (str% ".?/" ++ name) ∧ ∀ files, listFiles base (str% ".?/" ++ name) maxFiles s = (.ok files, s') →
      ∃ pre, (pre = base ∨ pre = undotted base) ∧ pre ++ [.parent, .normal name] ∈ files := by
  refine ⟨?_, fun files h => ?_⟩
  · rw [← hasDotDot_iff] at h2 ⊢
    exact h2
  · obtain ⟨l, h4, pre, h5, h6⟩ := glob_climb hr hdir hs hc
    obtain ⟨⟨ps, ms, hp, hf, -, -, hm⟩, -⟩ := (C38_listed base _ maxFiles s s' files).1 h
    have hps : ps = [str% ".?/" ++ name] := by
      refine pieces_unique hp ⟨by simp, ?_, rfl⟩
      intro p hp
      cases List.mem_singleton.1 hp
      simpa using h1
    subst hps
    cases hf with
    | @cons _ m _ ms hpm hf =>
    cases hf
    obtain ⟨all, h7, rfl⟩ := hpm
    have h8 := (hW s.state _).1 l h4
    unfold GlobMatches at h7
    rw [h7] at h8
    have h9 : all = l := List.map_injective_iff.2 (fun a b h => Except.ok.inj h) (Except.ok.inj h8)
    subst h9
    refine ⟨pre, h5, (hm _).2 ?_⟩
    rw [List.flatten_cons, List.flatten_nil, List.append_nil, List.mem_filter]
    refine ⟨h6, ?_⟩
    simpa using h3

/-! ### The weight files of polkadot-sdk -/

theorem describes_plain {p : Str} (h : '*' ∉ p ∧ '?' ∉ p ∧ '[' ∉ p) (hs : '/' ∉ p) (n : Str) : Describes p n ↔ n = p := by
  have ha : p ≠ anyDirs := by rintro rfl; simp at h
  rw [← (parse_fits (parse_plain h none) hs (.inl ha)).2.2 n]
  exact literal_fits (literal_plain p) n

theorem describes_star_plain {p : Str} (h : '*' ∉ p ∧ '?' ∉ p ∧ '[' ∉ p) (hs : '/' ∉ p) (n : Str) : Describes ('*' :: p) n ↔ ∃ a, n = a ++ p := by
  rw [describes_star]
  simp only [describes_plain h hs]
  constructor
  · rintro ⟨_, ⟨a, rfl⟩, rfl⟩; exact ⟨a, rfl⟩
  · rintro ⟨a, rfl⟩; exact ⟨p, ⟨a, rfl⟩, rfl⟩

/-- The pieces of the preset and their components. -/
def sdkPieces : List (Str × List Str) :=
  [(str% "substrate/frame/**/src/weights.rs", [str% "substrate", str% "frame", anyDirs, str% "src", str% "weights.rs"]),
   (str% "polkadot/runtime/*/src/weights/**/*.rs", [str% "polkadot", str% "runtime", str% "*", str% "src", str% "weights", anyDirs, str% "*.rs"]),
   (str% "polkadot/bridges/modules/*/src/weights.rs", [str% "polkadot", str% "bridges", str% "modules", str% "*", str% "src", str% "weights.rs"]),
   (str% "cumulus/**/weights/*.rs", [str% "cumulus", anyDirs, str% "weights", str% "*.rs"]),
   (str% "cumulus/**/weights/xcm/*.rs", [str% "cumulus", anyDirs, str% "weights", str% "xcm", str% "*.rs"]),
   (str% "cumulus/**/src/weights.rs", [str% "cumulus", anyDirs, str% "src", str% "weights.rs"])]

theorem sdk_ordinary : ∀ x ∈ sdkPieces, Ordinary x.1 x.2 := by
  have hgood : ∀ x ∈ sdkPieces, ∀ p ∈ x.2, p = anyDirs ∨ p = str% "*" ∨ p = str% "*.rs" ∨ ('*' ∉ p ∧ '?' ∉ p ∧ '[' ∉ p) := by decide +kernel
  intro x hx
  refine ⟨?_, ?_, ?_, ?_⟩
  · revert x hx; decide +kernel
  · revert x hx; decide +kernel
  · revert x hx; decide +kernel
  · intro p hp
    rcases hgood x hx p hp with h | h | h | h
    · exact .inl h
    · subst h; exact .inr (.star (by decide) .done)
    · subst h; exact .inr (.star (by decide) (plain_good (by decide)))
    · exact .inr (plain_good h)

theorem sdk_split : splitChar ',' ((pathPresets.lookup (str% "polkadot-sdk")).getD []) = sdkPieces.map (·.1) := by decide +kernel

/-- What a component describes, for those of the preset. -/
theorem sdk_plain (p : Str) (h : '*' ∉ p ∧ '?' ∉ p ∧ '[' ∉ p ∧ '/' ∉ p) (ps ns : List Str) :
    DescribesPath (p :: ps) ns ↔ ∃ ns', ns = p :: ns' ∧ DescribesPath ps ns' := by
  have ha : p ≠ anyDirs := by rintro rfl; simp at h
  rw [describesPath_name ha]
  simp only [describes_plain ⟨h.1, h.2.1, h.2.2.1⟩ h.2.2.2]
  constructor
  · rintro ⟨_, ns', rfl, rfl, hd⟩; exact ⟨ns', rfl, hd⟩
  · rintro ⟨ns', rfl, hd⟩; exact ⟨_, ns', rfl, rfl, hd⟩

theorem sdk_star (ps ns : List Str) : DescribesPath (str% "*" :: ps) ns ↔ ∃ n ns', ns = n :: ns' ∧ DescribesPath ps ns' := by
  rw [describesPath_name (by decide)]
  have : ∀ n, Describes (str% "*") n := fun n => (describes_star_plain (p := []) (by simp) (by simp) n).2 ⟨n, by simp⟩
  simp only [this, true_and]

theorem sdk_rs (ns : List Str) : DescribesPath [str% "*.rs"] ns ↔ ∃ a, ns = [a ++ str% ".rs"] := by
  rw [describesPath_name (by decide)]
  simp only [describesPath_nil, describes_star_plain (p := str% ".rs") (by decide) (by decide)]
  constructor
  · rintro ⟨_, _, rfl, ⟨a, rfl⟩, rfl⟩; exact ⟨a, rfl⟩
  · rintro ⟨a, rfl⟩; exact ⟨_, _, rfl, ⟨a, rfl⟩, rfl⟩

theorem sdk_paths (ns : List Str) : (∃ x ∈ sdkPieces, DescribesPath x.2 ns) ↔ WeightFile ns := by
  have p1 := sdk_plain (str% "substrate") (by decide)
  have p2 := sdk_plain (str% "frame") (by decide)
  have p3 := sdk_plain (str% "src") (by decide)
  have p4 := sdk_plain (str% "weights.rs") (by decide)
  have p5 := sdk_plain (str% "polkadot") (by decide)
  have p6 := sdk_plain (str% "runtime") (by decide)
  have p7 := sdk_plain (str% "weights") (by decide)
  have p8 := sdk_plain (str% "bridges") (by decide)
  have p9 := sdk_plain (str% "modules") (by decide)
  have p10 := sdk_plain (str% "cumulus") (by decide)
  have p11 := sdk_plain (str% "xcm") (by decide)
  have anyc : ∀ (p : Str) (ps ns : List Str), DescribesPath (anyDirs :: p :: ps) ns ↔ ∃ a c, ns = a ++ c ∧ DescribesPath (p :: ps) c :=
    fun p ps ns => describesPath_any (by simp)
  unfold sdkPieces
  simp only [List.mem_cons, List.not_mem_nil, or_false, exists_eq_or_imp, exists_eq_left]
  rw [p1, p5, p5, p10, p10, p10]
  simp only [p2, p6, p8, p9, sdk_star, p3, p7, anyc, p4, p11, sdk_rs, describesPath_nil]
  constructor
  · rintro (⟨_, rfl, _, rfl, a, _, rfl, _, rfl, _, rfl, rfl⟩ | ⟨_, rfl, _, rfl, r, _, rfl, _, rfl, _, rfl, a, _, rfl, n, rfl⟩ | ⟨_, rfl, _, rfl, _, rfl, m, _, rfl, _, rfl, _, rfl, rfl⟩ |
      ⟨_, rfl, a, _, rfl, _, rfl, n, rfl⟩ | ⟨_, rfl, a, _, rfl, _, rfl, _, rfl, n, rfl⟩ | ⟨_, rfl, a, _, rfl, _, rfl, _, rfl, rfl⟩)
    · exact .frame a
    · exact .runtime r a n
    · exact .bridge m
    · exact .parachain a n
    · exact .xcm a n
    · exact .pallet a
  · intro h
    cases h with
    | frame a => exact .inl ⟨_, rfl, _, rfl, a, _, rfl, _, rfl, _, rfl, rfl⟩
    | runtime r a n => exact .inr (.inl ⟨_, rfl, _, rfl, r, _, rfl, _, rfl, _, rfl, a, _, rfl, n, rfl⟩)
    | bridge m => exact .inr (.inr (.inl ⟨_, rfl, _, rfl, _, rfl, m, _, rfl, _, rfl, _, rfl, rfl⟩))
    | parachain a n => exact .inr (.inr (.inr (.inl ⟨_, rfl, a, _, rfl, _, rfl, n, rfl⟩)))
    | xcm a n => exact .inr (.inr (.inr (.inr (.inl ⟨_, rfl, a, _, rfl, _, rfl, _, rfl, n, rfl⟩))))
    | pallet a => exact .inr (.inr (.inr (.inr (.inr ⟨_, rfl, a, _, rfl, _, rfl, _, rfl, rfl⟩))))

/-- What the preset wants. -/
theorem sdk_wanted {pattern : Str} (hp : pathPresets.lookup (str% "polkadot-sdk") = some pattern) (base : Path) (repo : GlobNode) (f : Path) :
    Wanted base repo (splitChar ',' pattern) f ↔
      ∃ ns n, LeadsTo repo ns n ∧ WeightFile ns ∧ ns.getLast? ≠ some (str% "mod.rs") ∧ f = undotted base ++ ns.map .normal := by
  have hsplit : splitChar ',' pattern = sdkPieces.map (·.1) := by
    rw [← sdk_split, hp]; rfl
  have hlast : ∀ ns : List Str, WeightFile ns → ((undotted base ++ ns.map Comp.normal).getLast? ≠ some (.normal (str% "mod.rs")) ↔ ns.getLast? ≠ some (str% "mod.rs")) := by
    intro ns hns
    have h0 : ns ≠ [] := by cases hns <;> simp
    rw [List.getLast?_append_of_ne_nil _ (by simpa using h0), List.getLast?_map]
    cases ns.getLast? with
    | none => simp
    | some x => simp
  have hend : ∀ x ∈ sdkPieces, x.2.getLast? ≠ some anyDirs := by decide +kernel
  rw [hsplit]
  constructor
  · rintro ⟨hm, p, hp, comps, hc, ns, n, h3, h4, h5, rfl⟩
    obtain ⟨x, hx, rfl⟩ := List.mem_map.1 hp
    have hx' := sdk_ordinary x hx
    have e : comps = x.2 := by
      rw [← splitChar_join hc.some_ (fun p hp => (hc.names p hp).1), hc.split, ← hx'.split, splitChar_join hx'.some_ (fun p hp => (hx'.names p hp).1)]
    subst e
    have hw := (sdk_paths ns).1 ⟨x, hx, h4⟩
    exact ⟨ns, n, h3, hw, (hlast ns hw).1 hm, rfl⟩
  · rintro ⟨ns, n, h3, hw, hm, rfl⟩
    obtain ⟨x, hx, h4⟩ := (sdk_paths ns).2 hw
    exact ⟨(hlast ns hw).2 hm, x.1, List.mem_map.2 ⟨x, hx, rfl⟩, x.2, sdk_ordinary x hx, ns, n, h3, h4, fun h => absurd h (hend x hx), rfl⟩

/-- C98: the files compared for polkadot-sdk with the pattern of the pages are its weight files: those at the places of `WeightFile`, except `mod.rs`. -/
theorem C98_sdk {disk : W.State → GlobDisk} (hW : OnDisk W disk) {base : Path} {pattern : Str} (hp : pathPresets.lookup (str% "polkadot-sdk") = some pattern) {maxFiles : Nat}
    {s s' : Run W} {repo : GlobSpot} (hr : RepoAt (disk s.state) base repo) (hd : DistinctNames repo.node) {files : List Path}
    (h : listFiles base pattern maxFiles s = (.ok files, s')) (f : Path) :
    f ∈ files ↔ ∃ ns n, LeadsTo repo.node ns n ∧ WeightFile ns ∧ ns.getLast? ≠ some (str% "mod.rs") ∧ f = undotted base ++ ns.map .normal := by
  have ho : ∀ p ∈ splitChar ',' pattern, ∃ comps, Ordinary p comps := by
    intro p h
    rw [show splitChar ',' pattern = sdkPieces.map (·.1) by rw [← sdk_split, hp]; rfl] at h
    obtain ⟨x, hx, rfl⟩ := List.mem_map.1 h
    exact ⟨x.2, sdk_ordinary x hx⟩
  obtain ⟨-, h2⟩ := listed_wanted hW hr hd ho ((C38_listed base pattern maxFiles s s' files).1 h).1
  rw [h2, sdk_wanted hp]

/-! ### Names of files in reports -/

theorem display_names {ns : List Str} : Path.display (ns.map .normal) = joinStr (str% "/") ns := by
  have e : (ns.map Comp.normal).map Path.compStr = ns := by
    rw [List.map_map]
    exact (List.map_congr_left (g := id) fun x _ => rfl).trans (List.map_id ns)
  unfold Path.display
  split
  · next h => cases ns <;> cases h
  · rw [e]

/-- C98: in reports a file goes by the names from the repository on, unless the path of the repository is written with a leading `./`. -/
theorem C98_names {base : Path} (hb : base = undotted base ∨ base = [.cur]) {ns : List Str} (hn : ns ≠ []) :
    PathStripping.repoRelative.strip base (undotted base ++ ns.map .normal) = .ok (joinStr (str% "/") ns) := by
  unfold PathStripping.strip
  simp only
  rcases hb with hb | rfl
  · rw [← hb, stripPrefix_append]
    exact congrArg Res.ok display_names
  · have : Path.stripPrefix [.cur] (undotted [.cur] ++ ns.map .normal) = none := by
      cases ns with
      | nil => exact absurd rfl hn
      | cons x ns => simp [undotted, Path.stripPrefix]
    rw [this]
    exact congrArg Res.ok display_names

/-- C98 (disagreement): for a repository `./a` files go by names that begin with `a`, since the paths found have no leading dot and so do not begin with the path of the
repository. -/
theorem C98_false_dotted (p : List Str) (ns : List Str) (hp : p ≠ []) (hn : ns ≠ []) :
    PathStripping.repoRelative.strip (.cur :: p.map .normal) (undotted (.cur :: p.map .normal) ++ ns.map .normal) = .ok (joinStr (str% "/") p ++ str% "/" ++ joinStr (str% "/") ns) := by
  unfold PathStripping.strip
  have : Path.stripPrefix (.cur :: p.map .normal) (undotted (.cur :: p.map .normal) ++ ns.map .normal) = none := by
    cases p with
    | nil => exact absurd rfl hp
    | cons x p => simp [undotted, Path.stripPrefix]
  simp only [this, Option.getD_none]
  simp only [undotted, ← List.map_append, display_names, joinStr_append hp hn]
  simp

/-- C98: with the pattern of the pages, a comparison of two revisions of polkadot-sdk is about the functions in the weight files of each. -/
theorem C98_compared {disk : W.State → GlobDisk} (hW : OnDisk W disk) {repo : Path} {a : CompareArgs} {s0 : W.State} {olds news : List Located}
    (h : Revisions W repo a s0 olds news) (hp : pathPresets.lookup (str% "polkadot-sdk") = some (trim a.pathPattern)) :
    ∃ s1 files1 s2 files2, (∃ G, CheckedOut W (trim a.old) (a.gitPull ≠ some false) true s0 G s1) ∧ (∃ G, CheckedOut W (trim a.new) (a.gitPull ≠ some false) true s1 G s2) ∧
      FunctionsOf (W.fs s1) repo a.ignoreErrors files1 olds ∧ FunctionsOf (W.fs s2) repo a.ignoreErrors files2 news ∧
      ∀ s files, (s = s1 ∧ files = files1 ∨ s = s2 ∧ files = files2) → ∀ spot, RepoAt (disk s) repo spot → DistinctNames spot.node →
        ∀ f, f ∈ files ↔ ∃ ns n, LeadsTo spot.node ns n ∧ WeightFile ns ∧ ns.getLast? ≠ some (str% "mod.rs") ∧ f = undotted repo ++ ns.map .normal := by
  obtain ⟨G1, s1, files1, G2, s2, files2, h1, h2, h3, h4, h5, h6⟩ := h
  refine ⟨s1, files1, s2, files2, ⟨G1, h1⟩, ⟨G2, h4⟩, h3, h6, ?_⟩
  rintro s files (⟨rfl, rfl⟩ | ⟨rfl, rfl⟩) spot hr hd f
  · exact C98_sdk hW hp (s := ⟨s, []⟩) hr hd ((C38_listed repo _ 6000 ⟨s, []⟩ _ files).2 ⟨h2, _, splitChar_pieces _, rfl⟩) f
  · exact C98_sdk hW hp (s := ⟨s, []⟩) hr hd ((C38_listed repo _ 6000 ⟨s, []⟩ _ files).2 ⟨h5, _, splitChar_pieces _, rfl⟩) f

/-! ### Examples -/

/-- `a[b]/x.rs`, `r/a/a/b`, `r/lib.rs/x`, `secret`. -/
def exRoot : GlobNode :=
  .dir (.cons (str% "a[b]") (.dir (.cons (str% "x.rs") .file .nil))
    (.cons (str% "r") (.dir (.cons (str% "a") (.dir (.cons (str% "a") (.dir (.cons (str% "b") .file .nil)) .nil))
      (.cons (str% "lib.rs") (.dir (.cons (str% "x") .file .nil)) .nil)))
    (.cons (str% "secret") .file .nil)))

def exGlobDisk : GlobDisk := ⟨exRoot, ⟨exRoot, []⟩⟩

/-- C98 (disagreement): in a repository whose path has a bracket nothing is found; its name is taken for a pattern. -/
theorem C98_false_brackets : ∃ (d : GlobDisk) (name file : Str) (es : GlobEntries), HasEntry es file .file ∧ (∃ up, d.cwd.child name = some ⟨.dir es, up⟩) ∧
    globOn d (Path.display [.normal name] ++ str% "/" ++ file) = some [] :=
  ⟨exGlobDisk, str% "a[b]", str% "x.rs", .cons (str% "x.rs") .file .nil, .first, ⟨_, rfl⟩, by decide +kernel⟩

/-- C98 (disagreement): with two `**`, a file can be found twice, and counts twice towards the limit. -/
theorem C98_false_twice : ∃ (d : GlobDisk) (f : Path), globOn d (str% "r/**/a/**/b") = some [f, f] :=
  ⟨exGlobDisk, [.normal (str% "r"), .normal (str% "a"), .normal (str% "a"), .normal (str% "b")], by decide +kernel⟩

/-- C98 (disagreement): directories are listed as if they were files. -/
theorem C98_false_directory : ∃ (d : GlobDisk) (f : Path) (repo : GlobSpot) (es : GlobEntries), d.cwd.child (str% "r") = some repo ∧ LeadsTo repo.node [str% "lib.rs"] (.dir es) ∧
    f = [.normal (str% "r"), .normal (str% "lib.rs")] ∧ globOn d (str% "r/*.rs") = some [f] :=
  ⟨exGlobDisk, _, ⟨_, _⟩, .cons (str% "x") .file .nil, rfl, .down (.later .first) .here, rfl, by decide +kernel⟩

mutual
/-- No two entries of the same name, as a check. -/
def GlobNode.okNames : GlobNode → Bool
  | .file => true
  | .dir es => es.okNames
/-- … for the entries of a directory. -/
def GlobEntries.okNames : GlobEntries → Bool
  | .nil => true
  | .cons s n es => (es.find s).isNone && n.okNames && es.okNames
end

theorem okNames_entry {es : GlobEntries} {s : Str} {n : GlobNode} (h : HasEntry es s n) (ho : es.okNames = true) : n.okNames = true ∧ es.find s = some n := by
  induction h with
  | first =>
    simp only [GlobEntries.okNames, Bool.and_eq_true] at ho
    exact ⟨ho.1.2, by simp [GlobEntries.find]⟩
  | @later s t n m es h ih =>
    simp only [GlobEntries.okNames, Bool.and_eq_true] at ho
    obtain ⟨h1, h2⟩ := ih ho.2
    refine ⟨h1, ?_⟩
    unfold GlobEntries.find
    split
    · next e =>
      subst e
      rw [h2] at ho
      exact absurd ho.1.1 (by simp)
    · exact h2

theorem okNames_distinct {n : GlobNode} (h : n.okNames = true) : DistinctNames n := by
  have key : ∀ ns m, LeadsTo n ns m → m.okNames = true := by
    intro ns m hl
    induction hl with
    | here => exact h
    | down he _ ih => exact ih (okNames_entry he (by simpa [GlobNode.okNames] using h)).1
  intro ns es s a c hl ha hc
  have ho : es.okNames = true := by simpa [GlobNode.okNames] using key ns _ hl
  have h1 := (okNames_entry ha ho).2
  rw [(okNames_entry hc ho).2] at h1
  exact (Option.some.inj h1).symm

/-- A world with this disk. -/
def exGlobWorld : World where
  State := Unit
  git s _ := (.spawnFailed (str% "no git"), s)
  glob _ p := match globOn exGlobDisk p with
    | some l => .ok (l.map .ok)
    | none => .error (str% "refused")
  fs _ _ := .ok []

theorem exGlob_onDisk : OnDisk exGlobWorld (fun _ => exGlobDisk) := by
  intro s p
  constructor
  · intro l h
    simp only [exGlobWorld, h]
  · intro h
    exact ⟨str% "refused", by simp only [exGlobWorld, h]⟩

theorem exGlob_plain : NoMeaning (str% "r") := ⟨by decide, by decide, by decide⟩

theorem exGlob_repo : ∃ repo, RepoAt exGlobDisk [.normal (str% "r")] repo ∧ DistinctNames repo.node ∧ repo.node.isDir = true ∧ repo.parent.child (str% "secret") = some ⟨.file, [exRoot]⟩ :=
  ⟨⟨.dir (.cons (str% "a") (.dir (.cons (str% "a") (.dir (.cons (str% "b") .file .nil)) .nil)) (.cons (str% "lib.rs") (.dir (.cons (str% "x") .file .nil)) .nil)), [exRoot]⟩,
    .relative (by simp) (.name exGlob_plain rfl .stop), okNames_distinct rfl, rfl, rfl⟩

theorem exOrdinary : Ordinary (str% "**/[a-c]") [anyDirs, str% "[a-c]"] where
  split := rfl
  some_ := by simp
  names := by decide
  good := by
    intro p hp
    rcases List.mem_cons.1 hp with rfl | hp
    · exact .inl rfl
    · cases List.mem_singleton.1 hp
      exact .inr (.among (body := str% "-c") (p := []) (by decide) (by decide) .done)

theorem exGlob_ordinary : ∀ p ∈ splitChar ',' (str% "**/[a-c]"), ∃ comps, Ordinary p comps := by
  intro p hp
  cases List.mem_singleton.1 (show p ∈ [str% "**/[a-c]"] from hp)
  exact ⟨_, exOrdinary⟩

/-- The hypotheses of `C98_lists` hold for `**/[a-c]` in `r`, and `r/a`, `r/a/a` and `r/a/a/b` are listed. -/
example : ∃ repo, RepoAt exGlobDisk [.normal (str% "r")] repo ∧ DistinctNames repo.node ∧ ∀ p ∈ splitChar ',' (str% "**/[a-c]"), ∃ comps, Ordinary p comps := by
  obtain ⟨repo, h1, h2, -⟩ := exGlob_repo
  exact ⟨repo, h1, h2, exGlob_ordinary⟩
example : (match (listFiles [.normal (str% "r")] (str% "**/[a-c]") 9 (⟨(), []⟩ : Run exGlobWorld)).1 with | .ok l => some l | _ => none) =
    some [[.normal (str% "r"), .normal (str% "a")], [.normal (str% "r"), .normal (str% "a"), .normal (str% "a")],
      [.normal (str% "r"), .normal (str% "a"), .normal (str% "a"), .normal (str% "b")]] := by decide +kernel

/-- `.?/secret` is outside `r`. -/
example : (match (listFiles [.normal (str% "r")] (str% ".?/secret") 9 (⟨(), []⟩ : Run exGlobWorld)).1 with | .ok l => some l | _ => none) =
    some [[.normal (str% "r"), .parent, .normal (str% "secret")]] := by decide +kernel

example : Describes (str% "*.rs") (str% "weights.rs") ∧ ¬ Describes (str% "[!a-c]?") (str% "bx") ∧ Describes (str% "[!a-c]?") (str% "dx") := by
  have hp : parseGlob none (str% "[!a-c]?") = some [.except [.range 'a' 'c'], .anyChar] := by decide +kernel
  have hf := (parse_fits hp (by decide) (.inl (by decide))).2
  refine ⟨(describes_star_plain (p := str% ".rs") (by decide) (by decide) _).2 ⟨str% "weights", rfl⟩, ?_, ?_⟩
  · rw [← hf.2, ← globMatches_iff hf.1]; decide
  · rw [← hf.2, ← globMatches_iff hf.1]; decide

example : globOn exGlobDisk (str% "r/a**") = none ∧ globOn exGlobDisk (str% "r/[a") = none ∧ globOn exGlobDisk (str% "r/[!]") = none := by decide +kernel
example : WeightFile [str% "substrate", str% "frame", str% "balances", str% "src", str% "weights.rs"] := .frame [str% "balances"]

end Swc
