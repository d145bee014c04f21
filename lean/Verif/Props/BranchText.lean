/-
C62: exactly which texts are understood as lists of branches, and as which ones.
-/
import Verif.Props.Branches

namespace Swc

open Spec

theorem linesOf_iff (s : Str) (ls : List Str) : LinesOf s ls ↔ lines s = ls := by
  constructor
  · intro h
    induction h with
    | none => rfl
    | last hl hn => exact lines_last hn hl
    | lf hn hr h ih => rw [lines_cons hn, ih, stripCr, if_neg hr]
    | @crlf l rest ls hn h ih =>
      rw [show l ++ '\r' :: '\n' :: rest = (l ++ ['\r']) ++ '\n' :: rest by simp, lines_cons (by simp [hn]), ih, stripCr, if_pos (by simp)]
      simp
  · rintro rfl
    induction hn : s.length using Nat.strongRecOn generalizing s with
    | ind n ih =>
      subst hn
      by_cases hm : '\n' ∈ s
      · obtain ⟨l, rest, rfl, hl⟩ := List.eq_append_cons_of_mem hm
        rw [lines_cons hl]
        have ih2 := ih rest.length (by simp; omega) rest rfl
        unfold stripCr
        split
        · rename_i hr
          obtain ⟨l', rfl⟩ : ∃ l', l = l' ++ ['\r'] := by
            rcases List.eq_nil_or_concat l with rfl | ⟨l', x, rfl⟩
            · cases hr
            · simp at hr; subst hr; exact ⟨l', by simp⟩
          have := LinesOf.crlf (l := l') (rest := rest) (fun h => hl (by simp [h])) ih2
          simpa using this
        · rename_i hr
          exact .lf hl hr ih2
      · by_cases he : s = []
        · subst he; exact .none
        · rw [lines_last hm he]; exact .last he hm

theorem erased_iff {pat : Str} (hp : pat ≠ []) (s t : Str) : Erased pat s t ↔ removeAll pat s = t := by
  constructor
  · intro h
    induction h with
    | nil => rw [removeAll]
    | @here s t h ih =>
      cases pat with
      | nil => exact absurd rfl hp
      | cons c pat =>
        rw [List.cons_append, removeAll, if_pos ⟨hp, List.isPrefixOf_iff_prefix.2 ⟨s, rfl⟩⟩, ← ih]
        congr 1
        simp
    | @keep c s t hc h ih =>
      rw [removeAll, if_neg (fun h => hc (List.isPrefixOf_iff_prefix.1 h.2)), ih]
  · rintro rfl
    induction hn : s.length using Nat.strongRecOn generalizing s with
    | ind n ih =>
      subst hn
      cases s with
      | nil => rw [removeAll]; exact .nil
      | cons c s =>
        rw [removeAll]
        split
        · rename_i h
          obtain ⟨r, hr⟩ := List.isPrefixOf_iff_prefix.1 h.2
          have hlen : 0 < pat.length := List.length_pos_of_ne_nil hp
          rw [← hr, List.drop_left]
          exact .here (ih r.length (by rw [← hr]; simp; omega) r rfl)
        · rename_i h
          exact .keep (fun h' => h ⟨hp, List.isPrefixOf_iff_prefix.2 h'⟩) (ih s.length (by simp) s rfl)

theorem lineGives_iff (l : Str) (b : Str × Str) : LineGives l b ↔ branchOf (shortened l) = .ok b := by
  rw [show (branchOf (shortened l) = .ok b) = (branchOf (shortened l) = .ok (b.1, b.2)) from rfl, (C62_line (shortened l)).1]
  constructor
  · rintro ⟨t, u, w, ws, r, h1, h2, h3, h4⟩
    rw [erased_iff (by decide)] at h1 h2
    subst h1; subst h2
    exact ⟨w, ws, r, h3, h4⟩
  · rintro ⟨w, ws, r, h⟩
    exact ⟨_, _, w, ws, r, (erased_iff (by decide) _ _).2 rfl, (erased_iff (by decide) _ _).2 rfl, h⟩

theorem regular_iff (l : Str) : Regular l ↔ (!l.contains '{' && !l.contains '^') = true := by
  simp [Regular]

theorem linesGive_iff (ls : List Str) (bs : List (Str × Str)) :
    LinesGive ls bs ↔ (ls.filter fun l => !l.contains '{' && !l.contains '^').mapM (fun l => branchOf (shortened l)) = .ok bs := by
  constructor
  · intro h
    induction h with
    | nil => rfl
    | skip hl h ih => rw [List.filter_cons, if_neg (fun h => hl ((regular_iff _).2 h)), ih]
    | take hl hb h ih => rw [List.filter_cons, if_pos ((regular_iff _).1 hl), List.mapM_cons, (lineGives_iff _ _).1 hb, Res.bind_ok, ih]; rfl
  · induction ls generalizing bs with
    | nil => intro h; cases h; exact .nil
    | cons l ls ih =>
      intro h
      rw [List.filter_cons] at h
      split at h
      · rename_i hr
        rw [List.mapM_cons] at h
        obtain ⟨b, h1, h⟩ := bind_eq_ok h
        obtain ⟨bs', h2, h⟩ := bind_eq_ok h
        cases h
        exact .take ((regular_iff _).2 hr) ((lineGives_iff _ _).2 h1) (ih _ h2)
      · rename_i hr
        exact .skip (fun h => hr ((regular_iff _).1 h)) (ih _ h)

/-- C62: a text is understood as a list of branches exactly if its regular lines give them; the handler panics exactly if one of them gives nothing. -/
theorem C62_exact (text : Str) : (∀ bs, parseBranches text = .ok bs ↔ Lists text bs) ∧ (parseBranches text = .panic ↔ Garbled text) := by
  refine ⟨fun bs => ?_, ?_⟩
  · constructor
    · intro h
      exact ⟨_, (linesOf_iff _ _).2 rfl, (linesGive_iff _ _).2 h⟩
    · rintro ⟨ls, h1, h2⟩
      rw [linesOf_iff] at h1
      subst h1
      exact (linesGive_iff _ _).1 h2
  · have hm := mapM_branch (f := fun l => branchOf (shortened l)) (fun l => branchOf_cases _) (keptLines text)
    have e : parseBranches text = (keptLines text).mapM fun l => branchOf (shortened l) := rfl
    rw [← e] at hm
    have hk : ∀ l, l ∈ keptLines text ↔ l ∈ lines text ∧ Regular l := fun l => by rw [keptLines, List.mem_filter, regular_iff]
    constructor
    · intro h
      rcases hm with ⟨⟨xs, h1⟩, -⟩ | ⟨-, l, h2, h3⟩
      · rw [h] at h1; cases h1
      · refine ⟨_, (linesOf_iff _ _).2 rfl, l, ((hk l).1 h2).1, ((hk l).1 h2).2, ?_⟩
        rintro ⟨b, hb⟩
        rw [lineGives_iff, h3] at hb
        cases hb
    · rintro ⟨ls, h1, l, h2, h3, h4⟩
      rw [linesOf_iff] at h1
      subst h1
      rcases hm with ⟨-, h⟩ | ⟨h, -⟩
      · rcases branchOf_cases (shortened l) with ⟨b, hb⟩ | hb
        · exact absurd ⟨b, (lineGives_iff _ _).2 hb⟩ h4
        · exact absurd hb (h l ((hk l).2 ⟨h2, h3⟩))
      · exact h

/-- C62: removing white space around a text. -/
theorem C62_trim (s t : Str) : trim s = t ↔ Trimmed s t := by
  have front : ∀ s : Str, ∃ a, s = a ++ s.dropWhile isSpace ∧ (∀ c ∈ a, isSpace c = true) ∧ ∀ c, (s.dropWhile isSpace).head? = some c → isSpace c = false := by
    intro s
    induction s with
    | nil => exact ⟨[], rfl, by simp, by simp⟩
    | cons c s ih =>
      obtain ⟨a, h1, h2, h3⟩ := ih
      rw [List.dropWhile_cons]
      split
      · rename_i hc
        exact ⟨c :: a, congrArg (c :: ·) h1, by simpa [hc] using h2, h3⟩
      · rename_i hc
        exact ⟨[], rfl, by simp, by simpa using hc⟩
  have has : Trimmed s (trim s) := by
    obtain ⟨a, h1, h2, h3⟩ := front s
    obtain ⟨b, g1, g2, g3⟩ := front (s.dropWhile isSpace).reverse
    have g1' := congrArg List.reverse g1
    rw [List.reverse_reverse, List.reverse_append] at g1'
    refine ⟨a, b.reverse, ?_, h2, by simpa using g2, ?_, ?_⟩
    · rw [List.append_assoc]
      exact h1.trans (congrArg (a ++ ·) g1')
    · intro c hc
      apply h3
      rw [g1']
      show ((trim s) ++ b.reverse).head? = _
      rw [List.head?_append, hc]
      rfl
    · intro c hc
      apply g3
      rw [trim, List.getLast?_reverse] at hc
      exact hc
  have skip : ∀ a x : Str, (∀ c ∈ a, isSpace c = true) → (∀ c, x.head? = some c → isSpace c = false) → (a ++ x).dropWhile isSpace = x := by
    intro a x ha hx
    rw [List.dropWhile_append_of_pos ha]
    cases x with
    | nil => rfl
    | cons c x => rw [List.dropWhile_cons, if_neg (by simp [hx c rfl])]
  refine ⟨fun h => h ▸ has, ?_⟩
  rintro ⟨a, b, rfl, h2, h3, h4, h5⟩
  unfold trim
  cases t with
  | nil =>
    rw [List.append_nil, ← List.append_nil (a ++ b), skip _ [] (fun c hc => (List.mem_append.1 hc).elim (h2 c) (h3 c)) (by simp)]
    rfl
  | cons c t =>
    rw [List.append_assoc, skip a _ h2 (by simpa using h4), List.reverse_append, skip _ _ (by simpa using h3) (fun d hd => h5 d (by rwa [List.head?_reverse] at hd)), List.reverse_reverse]

example : LinesOf (str% "a\r\nb\n\nc") [str% "a", str% "b", [], str% "c"] := (linesOf_iff _ _).2 (by decide)
example : Lists (str% "0123456789abcdef\trefs/heads/main\n0123456789abcdef\trefs/tags/v1^{}\n") [(str% "main", str% "0123456789ab")] :=
  ((C62_exact _).1 _).1 (by decide +kernel)
example : Garbled (str% "warning: nothing\n") := (C62_exact _).2.1 (by decide +kernel)
example : Trimmed (str% " \ta b\n") (str% "a b") := (C62_trim _ _).1 (by decide)

end Swc
