/-
A checker for layouts: that a concrete text is a layout of concrete tokens can be computed.
-/
import Verif.Spec.RustGrammar
import Verif.Props.ParseFile

namespace Swc

open Spec

namespace LayoutCheck

/-- White space. -/
def white (c : Char) : Bool := c == ' ' || c == '\t' || c == '\n' || c == '\r'

/-- The text after `//` is a plain comment. -/
def plainComment : Str → Bool
  | [] => true
  | '!' :: _ => false
  | '/' :: '/' :: _ => true
  | '/' :: _ => false
  | _ => true

theorem plainComment_sound {t : Str} (h : plainComment t = true) : PlainComment t := by
  rintro c r rfl
  constructor
  · rintro rfl; simp [plainComment] at h
  · rintro rfl
    cases r with
    | nil => simp [plainComment] at h
    | cons d r =>
      by_cases hd : d = '/'
      · exact ⟨r, by rw [hd]⟩
      · simp [plainComment, hd] at h

/-- What follows white space and plain comments. -/
def skipBlank : Nat → Str → Str
  | 0, s => s
  | _ + 1, [] => []
  | n + 1, c :: s =>
    if white c then skipBlank n s
    else match c, s with
      | '/', '/' :: t =>
        if plainComment (t.takeWhile (· != '\n')) then
          match t.dropWhile (· != '\n') with
          | '\n' :: r => skipBlank n r
          | _ => c :: s
        else c :: s
      | _, _ => c :: s

theorem skipBlank_sound (n : Nat) (s : Str) : ∃ gap, Blank gap ∧ s = gap ++ skipBlank n s := by
  induction n generalizing s with
  | zero => exact ⟨[], .nil, rfl⟩
  | succ n ih =>
    cases s with
    | nil => exact ⟨[], .nil, rfl⟩
    | cons c s =>
      unfold skipBlank
      split
      · rename_i hw
        obtain ⟨gap, h1, h2⟩ := ih s
        refine ⟨c :: gap, .white ?_ h1, by rw [List.cons_append, ← h2]⟩
        simpa [white, or_assoc] using hw
      · split
        · rename_i t _
          split
          · rename_i hp
            split
            · rename_i r hr
              obtain ⟨gap, h1, h2⟩ := ih r
              refine ⟨'/' :: '/' :: (t.takeWhile (· != '\n') ++ '\n' :: gap), .comment ?_ (plainComment_sound hp) h1, ?_⟩
              · intro hm
                have := List.all_eq_true.1 List.all_takeWhile _ hm
                simp at this
              · simp only [List.cons_append, List.append_assoc, ← h2, ← hr, List.takeWhile_append_dropWhile]
            · exact ⟨[], .nil, rfl⟩
          · exact ⟨[], .nil, rfl⟩
        · exact ⟨[], .nil, rfl⟩

/-- A letter of a word. -/
def wordCharB (c : Char) : Bool := c.isAlpha || c.isDigit || c == '_'

theorem wordCharB_iff (c : Char) : wordCharB c = true ↔ WordChar c := by
  simp [wordCharB, WordChar, or_assoc]

/-- A word. -/
def wordB : Str → Bool
  | [] => false
  | c :: r => (c.isAlpha || c == '_') && r.all wordCharB

theorem wordB_sound {x : Str} (h : wordB x = true) : Word x := by
  cases x with
  | nil => cases h
  | cons c r =>
    simp only [wordB, Bool.and_eq_true, Bool.or_eq_true, beq_iff_eq, List.all_eq_true] at h
    exact ⟨c, r, rfl, h.1, fun d hd => (wordCharB_iff d).1 (h.2 d hd)⟩

/-- What follows a token does not run into it. -/
def apartB : RTok → Str → Bool
  | .ident _, c :: _ => !wordCharB c && c != '"' && c != '\'' && c != '#'
  | .int _, '.' :: d :: _ => d.isAlpha || d == '_'
  | .int _, c :: _ => !wordCharB c && c != '.'
  | .lit _, _ => false
  | .doc _ _, '\n' :: _ => true
  | .doc _ _, _ => false
  | .sym .colon, ':' :: _ => false
  | .sym .eq, '>' :: _ => false
  | .sym (.other _), _ => false
  | .lifetime _, _ => false
  | _, _ => true

theorem apartB_sound {t : RTok} {s : Str} (h : apartB t s = true) : Apart t s := by
  cases t with
  | ident x =>
    rintro c r rfl
    simp only [apartB, Bool.and_eq_true, Bool.not_eq_true', bne_iff_ne, ne_eq] at h
    exact ⟨fun hc => by rw [(wordCharB_iff c).2 hc] at h; exact absurd h.1.1.1 (by decide), h.1.1.2, h.1.2, h.2⟩
  | int d =>
    rintro c r rfl
    by_cases hc : c = '.'
    · subst hc
      refine ⟨by unfold WordChar; decide, fun _ => ?_⟩
      cases r with
      | nil => simp [apartB] at h
      | cons d r => simp only [apartB, Bool.or_eq_true, beq_iff_eq] at h; exact ⟨d, r, rfl, h⟩
    · have : apartB (.int d) (c :: r) = (!wordCharB c && c != '.') := by
        unfold apartB
        split <;> simp_all
      rw [this] at h
      simp only [Bool.and_eq_true, Bool.not_eq_true', bne_iff_ne, ne_eq] at h
      exact ⟨fun hw => by rw [(wordCharB_iff c).2 hw] at h; exact absurd h.1 (by decide), fun h' => absurd h' hc⟩
  | lit x => simp [apartB] at h
  | lifetime x => simp [apartB] at h
  | doc i x =>
    cases s with
    | nil => simp [apartB] at h
    | cons c s =>
      by_cases hc : c = '\n'
      · exact ⟨s, by rw [hc]⟩
      · exfalso; revert h; unfold apartB; split <;> simp_all
  | sym y =>
    cases y with
    | colon => rintro r rfl; simp [apartB] at h
    | eq => rintro r rfl; simp [apartB] at h
    | other c => simp [apartB] at h
    | _ => trivial
  | opn d => trivial
  | cls d => trivial

/-- The text after a token. -/
def afterTok : RTok → Str → Option Str
  | .ident x, s => if wordB x then stripLit x s else none
  | .int d, s =>
    let t := s.takeWhile fun c => c.isDigit || c == '_'
    let r := s.dropWhile fun c => c.isDigit || c == '_'
    let suffix := r.takeWhile wordCharB
    let ds := t.filter (· ≠ '_')
    if suffix ∈ intSuffixes ∧ (t.head?.any Char.isDigit) ∧ ds = List.replicate (ds.length - d.length) '0' ++ d
      ∧ (d = str% "0" ∨ (d ≠ [] ∧ d.head? ≠ some '0')) then some (r.dropWhile wordCharB) else none
  | .doc i x, s =>
    if '\n' ∈ x ∨ '\r' ∈ x ∨ (i = false ∧ x.head? = some '/') then none else stripLit ((if i then str% "//!" else str% "///") ++ x) s
  | .sym (.other _), _ => none
  | .sym y, s => stripLit (symText y) s
  | .opn d, s => stripLit (openText d) s
  | .cls d, s => stripLit (closeText d) s
  | _, _ => none

theorem afterTok_sound {t : RTok} {s r : Str} (h : afterTok t s = some r) : ∃ w, s = w ++ r ∧ SpellsTok t w := by
  cases t with
  | ident x =>
    rw [afterTok] at h
    split at h
    · rename_i hx
      exact ⟨x, stripLit_some h, .ident (wordB_sound hx)⟩
    · cases h
  | int d =>
    rw [afterTok] at h
    split at h
    · rename_i hc
      obtain ⟨h1, h2, h3, h4⟩ := hc
      cases h
      refine ⟨s.takeWhile (fun c => c.isDigit || c == '_') ++ (s.dropWhile fun c => c.isDigit || c == '_').takeWhile wordCharB, ?_, .int
        ⟨_, _, _, rfl, h1, ?_, ?_, h3, ?_⟩⟩
      · rw [List.append_assoc, List.takeWhile_append_dropWhile, List.takeWhile_append_dropWhile]
      · revert h2
        cases s.takeWhile (fun c => c.isDigit || c == '_') with
        | nil => intro h; cases h
        | cons c l => intro h; exact ⟨c, l, rfl, h⟩
      · intro c hc
        have := List.all_eq_true.1 List.all_takeWhile _ hc
        simpa using this
      · rcases h4 with h4 | ⟨h4, h5⟩
        · exact .inl h4
        · cases d with
          | nil => exact absurd rfl h4
          | cons c l => exact .inr ⟨c, l, rfl, by simpa using h5⟩
    · cases h
  | lit x => cases h
  | lifetime x => cases h
  | doc i x =>
    rw [afterTok] at h
    split at h
    · cases h
    · rename_i hn
      simp only [not_or] at hn
      have := stripLit_some h
      cases i
      · refine ⟨_, this, ?_⟩
        exact .doc hn.1 hn.2.1 fun r hr => hn.2.2 ⟨rfl, by rw [hr]; rfl⟩
      · refine ⟨_, this, ?_⟩
        exact .innerDoc hn.1 hn.2.1
  | sym y =>
    cases y with
    | other c => cases h
    | _ => exact ⟨_, stripLit_some h, .sym (fun c hc => by cases hc)⟩
  | opn d => exact ⟨_, stripLit_some h, .opn⟩
  | cls d => exact ⟨_, stripLit_some h, .cls⟩

/-- The text is a layout of the tokens. -/
def layoutB : List RTok → Str → Bool
  | [], s => (skipBlank s.length s).isEmpty
  | t :: ts, s =>
    match afterTok t (skipBlank s.length s) with
    | some r => apartB t r && layoutB ts r
    | none => false

theorem layoutB_sound {ts : List RTok} {s : Str} (h : layoutB ts s = true) : Layout ts s := by
  induction ts generalizing s with
  | nil =>
    obtain ⟨gap, h1, h2⟩ := skipBlank_sound s.length s
    rw [layoutB, List.isEmpty_iff] at h
    rw [h, List.append_nil] at h2
    rw [h2]
    exact .nil h1
  | cons t ts ih =>
    obtain ⟨gap, h1, h2⟩ := skipBlank_sound s.length s
    rw [layoutB] at h
    split at h
    · rename_i r hr
      rw [Bool.and_eq_true] at h
      obtain ⟨w, hw, hsp⟩ := afterTok_sound hr
      rw [h2, hw, ← List.append_assoc]
      exact .cons h1 hsp (apartB_sound h.1) (ih h.2)
    · cases h

end LayoutCheck

end Swc
