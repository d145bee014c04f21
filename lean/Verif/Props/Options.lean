/-
C64: the names of options.
-/
import Verif.Model.Options
import Verif.Spec.Options

namespace Swc

open Spec

/-- C64: the names of methods round-trip; `reflect` (shown in the web form) pairs each method with the name that is parsed to it. -/
theorem C64_method : Knows CompareMethod.fromStr (CompareMethod.reflect.map Prod.swap)
    ∧ Complete (CompareMethod.reflect.map Prod.swap) ∧ CompareMethod.reflect.map (·.2) = CompareMethod.variants := by
  refine ⟨fun s => ?_, ⟨fun v => ?_, by decide, by decide⟩, by decide⟩
  · have e : CompareMethod.reflect.map Prod.swap = [(str% "base", .base), (str% "guess-worst", .guessWorst), (str% "exact-worst", .exactWorst),
      (str% "exact-asymptotic", .exactAsymptotic), (str% "asymptotic", .asymptotic)] := rfl
    rw [e, CompareMethod.fromStr]
    by_cases h1 : s = str% "base"
    · subst h1; exact ⟨fun v => by cases v <;> decide, fun h => absurd (h .base) (by decide)⟩
    by_cases h2 : s = str% "guess-worst"
    · subst h2; exact ⟨fun v => by cases v <;> decide, fun h => absurd (h .guessWorst) (by decide)⟩
    by_cases h3 : s = str% "exact-worst"
    · subst h3; exact ⟨fun v => by cases v <;> decide, fun h => absurd (h .exactWorst) (by decide)⟩
    by_cases h4 : s = str% "exact-asymptotic"
    · subst h4; exact ⟨fun v => by cases v <;> decide, fun h => absurd (h .exactAsymptotic) (by decide)⟩
    by_cases h5 : s = str% "asymptotic"
    · subst h5; exact ⟨fun v => by cases v <;> decide, fun h => absurd (h .asymptotic) (by decide)⟩
    rw [if_neg h1, if_neg h2, if_neg h3, if_neg h4, if_neg h5]
    refine ⟨fun v => ⟨fun h => (by cases h), fun h => ?_⟩, fun _ => ⟨_, rfl⟩⟩
    simp only [List.mem_cons, Prod.mk.injEq, List.not_mem_nil, or_false] at h
    tauto
  · cases v <;> decide

/-- C64: a dimension has its name and the alias `weight` for the time. -/
theorem C64_dimension : Knows Dimension.fromStr (Dimension.reflect.map Prod.swap ++ [(str% "weight", .time)])
    ∧ Complete (Dimension.reflect.map Prod.swap) ∧ Dimension.reflect.map (·.2) = Dimension.variants := by
  refine ⟨fun s => ?_, ⟨fun v => ?_, by decide, by decide⟩, by decide⟩
  · have e : Dimension.reflect.map Prod.swap ++ [(str% "weight", .time)] = [(str% "time", .time), (str% "proof", .proof), (str% "weight", .time)] := rfl
    rw [e, Dimension.fromStr]
    by_cases h1 : s = str% "time"
    · subst h1; exact ⟨fun v => by cases v <;> decide, fun h => absurd (h .time) (by decide)⟩
    by_cases h2 : s = str% "weight"
    · subst h2; exact ⟨fun v => by cases v <;> decide, fun h => absurd (h .time) (by decide)⟩
    by_cases h3 : s = str% "proof"
    · subst h3; exact ⟨fun v => by cases v <;> decide, fun h => absurd (h .proof) (by decide)⟩
    rw [if_neg (by tauto), if_neg h3]
    refine ⟨fun v => ⟨fun h => (by cases h), fun h => ?_⟩, fun _ => ⟨_, rfl⟩⟩
    simp only [List.mem_cons, Prod.mk.injEq, List.not_mem_nil, or_false] at h
    tauto
  · cases v <;> decide

/-- C64: kinds of change. -/
theorem C64_change : ∃ names, Knows RelativeChange.fromStr names ∧ Complete names ∧ names.map (·.1) = RelativeChange.variants := by
  refine ⟨[(str% "unchanged", .unchanged), (str% "changed", .changed), (str% "added", .added), (str% "removed", .removed)],
    fun s => ?_, ⟨fun v => ?_, by decide, by decide⟩, by decide⟩
  · rw [RelativeChange.fromStr]
    by_cases h1 : s = str% "unchanged"
    · subst h1; exact ⟨fun v => by cases v <;> decide, fun h => absurd (h .unchanged) (by decide)⟩
    by_cases h2 : s = str% "changed"
    · subst h2; exact ⟨fun v => by cases v <;> decide, fun h => absurd (h .changed) (by decide)⟩
    by_cases h3 : s = str% "added"
    · subst h3; exact ⟨fun v => by cases v <;> decide, fun h => absurd (h .added) (by decide)⟩
    by_cases h4 : s = str% "removed"
    · subst h4; exact ⟨fun v => by cases v <;> decide, fun h => absurd (h .removed) (by decide)⟩
    rw [if_neg h1, if_neg h2, if_neg h3, if_neg h4]
    refine ⟨fun v => ⟨fun h => (by cases h), fun h => ?_⟩, fun _ => ⟨_, rfl⟩⟩
    simp only [List.mem_cons, Prod.mk.injEq, List.not_mem_nil, or_false] at h
    tauto
  · cases v <;> decide

/-- C64: output formats. -/
theorem C64_format : ∃ names, Knows OutputFormat.fromStr names ∧ Complete names ∧ names.map (·.1) = OutputFormat.variants := by
  refine ⟨[(str% "human", .human), (str% "brief-human", .briefHuman), (str% "csv", .csv), (str% "json", .json), (str% "markdown", .markdown)],
    fun s => ?_, ⟨fun v => ?_, by decide, by decide⟩, by decide⟩
  · rw [OutputFormat.fromStr]
    by_cases h1 : s = str% "human"
    · subst h1; exact ⟨fun v => by cases v <;> decide, fun h => absurd (h .human) (by decide)⟩
    by_cases h2 : s = str% "brief-human"
    · subst h2; exact ⟨fun v => by cases v <;> decide, fun h => absurd (h .briefHuman) (by decide)⟩
    by_cases h3 : s = str% "csv"
    · subst h3; exact ⟨fun v => by cases v <;> decide, fun h => absurd (h .csv) (by decide)⟩
    by_cases h4 : s = str% "json"
    · subst h4; exact ⟨fun v => by cases v <;> decide, fun h => absurd (h .json) (by decide)⟩
    by_cases h5 : s = str% "markdown"
    · subst h5; exact ⟨fun v => by cases v <;> decide, fun h => absurd (h .markdown) (by decide)⟩
    rw [if_neg h1, if_neg h2, if_neg h3, if_neg h4, if_neg h5]
    refine ⟨fun v => ⟨fun h => (by cases h), fun h => ?_⟩, fun _ => ⟨_, rfl⟩⟩
    simp only [List.mem_cons, Prod.mk.injEq, List.not_mem_nil, or_false] at h
    tauto
  · cases v <;> decide

/-- C64: ways of stripping a path. -/
theorem C64_stripping : ∃ names, Knows PathStripping.fromStr names ∧ Complete names ∧ names.map (·.1) = PathStripping.variants := by
  refine ⟨[(str% "file_name", .fileName), (str% "repo_relative", .repoRelative)], fun s => ?_, ⟨fun v => ?_, by decide, by decide⟩, by decide⟩
  · rw [PathStripping.fromStr]
    by_cases h1 : s = str% "file_name"
    · subst h1; exact ⟨fun v => by cases v <;> decide, fun h => absurd (h .fileName) (by decide)⟩
    by_cases h2 : s = str% "repo_relative"
    · subst h2; exact ⟨fun v => by cases v <;> decide, fun h => absurd (h .repoRelative) (by decide)⟩
    rw [if_neg h1, if_neg h2]
    refine ⟨fun v => ⟨fun h => (by cases h), fun h => ?_⟩, fun _ => ⟨_, rfl⟩⟩
    simp only [List.mem_cons, Prod.mk.injEq, List.not_mem_nil, or_false] at h
    tauto
  · cases v <;> decide

/-! ### The derived parsers -/

theorem lookup_iff_mem {E : Type} {l : List (Str × E)} (h : (l.map (·.1)).Nodup) (s : Str) (v : E) : l.lookup s = some v ↔ (s, v) ∈ l := by
  induction l with
  | nil => simp
  | cons p l ih =>
    obtain ⟨t, w⟩ := p
    rw [List.map_cons, List.nodup_cons] at h
    rw [List.lookup_cons]
    by_cases hs : s = t
    · subst hs
      simp only [beq_self_eq_true, Option.some.injEq, List.mem_cons, Prod.mk.injEq, true_and]
      constructor
      · exact fun h => .inl h.symm
      · rintro (h' | h')
        · exact h'.symm
        · exact absurd (List.mem_map_of_mem (f := Prod.fst) h') h.1
    · have : (s == t) = false := by simpa using hs
      rw [this, List.mem_cons, ih h.2]
      simp [hs]

/-- C64: the query parameter `method` of the web server accepts exactly the names shown in its form (the value of an option of the form is the
name, `web/templates/compare.stpl`), each for the method shown. -/
theorem C64_web_method (s : Str) (v : CompareMethod) : deserialize CompareMethod.serdeNames s = some v ↔ CompareMethod.fromStr s = .ok v := by
  rw [deserialize, lookup_iff_mem (by decide), (C64_method.1 s).1 v]
  have : CompareMethod.serdeNames.Perm (CompareMethod.reflect.map Prod.swap) := by decide
  exact this.mem_iff

/-- C64: the query parameter `unit` accepts exactly the names of dimensions and the alias. -/
theorem C64_web_unit (s : Str) (v : Dimension) : deserialize Dimension.serdeNames s = some v ↔ Dimension.fromStr s = .ok v := by
  rw [deserialize, lookup_iff_mem (by decide), (C64_dimension.1 s).1 v]
  have : Dimension.serdeNames.Perm (Dimension.reflect.map Prod.swap ++ [(str% "weight", .time)]) := by decide
  exact this.mem_iff

theorem asciiLower_iff (s t : Str) : asciiLower s = asciiLower t ↔ SameLetters s t := by
  constructor
  · intro h
    induction s generalizing t with
    | nil => cases t with
      | nil => exact .nil
      | cons b t => cases h
    | cons a s ih => cases t with
      | nil => cases h
      | cons b t =>
        simp only [asciiLower, List.map_cons, List.cons.injEq] at h
        exact .cons h.1 (ih _ h.2)
  · intro h
    induction h with
    | nil => rfl
    | cons h _ ih => simp only [asciiLower, List.map_cons, List.cons.injEq]; exact ⟨h, ih⟩

/-- A parser of `clap` knows the kebab-case names, in any case. -/
theorem valueEnum_iff {E : Type} (idents : List (Str × E)) (hn : (idents.map fun p => asciiLower (clapKebab p.1)).Nodup) (s : Str) (v : E) :
    valueEnum idents s = some v ↔ ∃ i, (i, v) ∈ idents ∧ SameLetters (clapKebab i) s := by
  unfold valueEnum
  rw [Option.map_eq_some_iff]
  constructor
  · rintro ⟨p, hp, rfl⟩
    exact ⟨p.1, List.mem_of_find?_eq_some hp, (asciiLower_iff _ _).1 (by simpa using List.find?_some hp)⟩
  · rintro ⟨i, hm, hs⟩
    rw [← asciiLower_iff] at hs
    induction idents with
    | nil => cases hm
    | cons q l ih =>
      rw [List.map_cons, List.nodup_cons] at hn
      rw [List.find?_cons]
      rcases List.mem_cons.1 hm with rfl | hm
      · exact ⟨(i, v), by simp [hs], rfl⟩
      · have : (asciiLower (clapKebab q.1) == asciiLower s) = false := by
          rw [beq_eq_false_iff_ne, ← hs]
          intro h
          exact hn.1 (List.mem_map.2 ⟨(i, v), hm, h.symm⟩)
        rw [this]
        exact ih hn.2 hm

/-- Accepting a name in any case and accepting it in lower case is the same for names in lower case. -/
theorem valueEnum_lower {E : Type} {idents : List (Str × E)} (hn : (idents.map fun p => asciiLower (clapKebab p.1)).Nodup)
    {names : List (Str × E)} {parse : Str → Res E} (hk : Knows parse names) (he : (idents.map fun p => (clapKebab p.1, p.2)).Perm names)
    (hl : ∀ p ∈ idents, asciiLower (clapKebab p.1) = clapKebab p.1) (s : Str) (v : E) :
    valueEnum idents s = some v ↔ parse (asciiLower s) = .ok v := by
  rw [valueEnum_iff _ hn, (hk _).1 v, ← he.mem_iff, List.mem_map]
  constructor
  · rintro ⟨i, hm, hs⟩
    refine ⟨(i, v), hm, ?_⟩
    rw [← asciiLower_iff, hl _ hm] at hs
    rw [← hs]
  · rintro ⟨p, hm, hp⟩
    rw [Prod.mk.injEq] at hp
    obtain ⟨h1, rfl⟩ := hp
    refine ⟨p.1, hm, ?_⟩
    rw [← asciiLower_iff, hl _ hm, h1]

/-- C64: the command line accepts exactly the names of methods, in any case. -/
theorem C64_cli_method (s : Str) (v : CompareMethod) : valueEnum CompareMethod.idents s = some v ↔ CompareMethod.fromStr (asciiLower s) = .ok v :=
  valueEnum_lower (by decide) C64_method.1 (by decide) (by decide) s v

/-- C64: … of output formats. -/
theorem C64_cli_format (s : Str) (v : OutputFormat) : valueEnum OutputFormat.idents s = some v ↔ OutputFormat.fromStr (asciiLower s) = .ok v := by
  refine valueEnum_lower (names := [(str% "human", .human), (str% "brief-human", .briefHuman), (str% "csv", .csv), (str% "json", .json),
    (str% "markdown", .markdown)]) (by decide) ?_ (by decide) (by decide) s v
  obtain ⟨names, h1, -, h3⟩ := C64_format
  intro t
  have key : ∀ t v, (t, v) ∈ names ↔ (t, v) ∈ [(str% "human", OutputFormat.human), (str% "brief-human", .briefHuman), (str% "csv", .csv),
      (str% "json", .json), (str% "markdown", .markdown)] := by
    intro t v
    rw [← (h1 t).1 v]
    by_cases ht : t ∈ OutputFormat.variants
    · simp only [OutputFormat.variants, List.mem_cons, List.not_mem_nil, or_false] at ht
      rcases ht with rfl | rfl | rfl | rfl | rfl <;> cases v <;> decide
    · constructor
      · intro h
        rw [(h1 t).1 v] at h
        exact absurd (h3 ▸ List.mem_map_of_mem (f := Prod.fst) h) ht
      · intro h
        refine absurd ?_ ht
        have := List.mem_map_of_mem (f := Prod.fst) h
        simpa [OutputFormat.variants] using this
  exact ⟨fun v => ((h1 t).1 v).trans (key t v), fun h => (h1 t).2 fun v hv => h v ((key t v).1 hv)⟩

/-- C64 (finding): the alias `weight` of the dimension, kept for backwards compatibility, is accepted in queries and by `FromStr`, but not by the
command line. -/
theorem C64_cli_weight_refused : valueEnum Dimension.idents (str% "weight") = none ∧ Dimension.fromStr (str% "weight") = .ok .time
    ∧ deserialize Dimension.serdeNames (str% "weight") = some .time := by decide

/-- C64: apart from that the command line accepts exactly the names of dimensions, in any case. -/
theorem C64_cli_unit (s : Str) (v : Dimension) :
    valueEnum Dimension.idents s = some v ↔ Dimension.fromStr (asciiLower s) = .ok v ∧ asciiLower s ≠ str% "weight" := by
  rw [valueEnum_iff _ (by decide), ((C64_dimension.1 _).1 v)]
  constructor
  · rintro ⟨i, hm, hs⟩
    rw [← asciiLower_iff] at hs
    rw [← hs]
    simp only [Dimension.idents, List.mem_cons, Prod.mk.injEq, List.not_mem_nil, or_false] at hm
    rcases hm with ⟨rfl, rfl⟩ | ⟨rfl, rfl⟩ <;> decide
  · rintro ⟨h, hw⟩
    have e : Dimension.reflect.map Prod.swap ++ [(str% "weight", .time)] = [(str% "time", .time), (str% "proof", .proof), (str% "weight", .time)] := rfl
    rw [e] at h
    simp only [List.mem_cons, Prod.mk.injEq, List.not_mem_nil, or_false] at h
    rcases h with ⟨h, rfl⟩ | ⟨h, rfl⟩ | ⟨h, rfl⟩
    · exact ⟨str% "Time", by decide, by rw [← asciiLower_iff, h]; decide⟩
    · exact ⟨str% "Proof", by decide, by rw [← asciiLower_iff, h]; decide⟩
    · exact absurd h hw

/-- C64: … and of kinds of change. -/
theorem C64_cli_change (s : Str) (v : RelativeChange) : valueEnum RelativeChange.idents s = some v ↔ RelativeChange.fromStr (asciiLower s) = .ok v := by
  rw [valueEnum_iff _ (by decide)]
  constructor
  · rintro ⟨i, hm, hs⟩
    rw [← asciiLower_iff] at hs
    rw [← hs]
    simp only [RelativeChange.idents, List.mem_cons, Prod.mk.injEq, List.not_mem_nil, or_false] at hm
    rcases hm with ⟨rfl, rfl⟩ | ⟨rfl, rfl⟩ | ⟨rfl, rfl⟩ | ⟨rfl, rfl⟩ <;> decide
  · intro h
    rw [RelativeChange.fromStr] at h
    have hi : ∀ i, (i, v) ∈ RelativeChange.idents → asciiLower s = asciiLower (clapKebab i) → ∃ i, (i, v) ∈ RelativeChange.idents ∧ SameLetters (clapKebab i) s :=
      fun i h1 h2 => ⟨i, h1, by rw [← asciiLower_iff, h2]⟩
    split at h
    · rename_i hs; cases h; exact hi (str% "Unchanged") (by decide) hs
    split at h
    · rename_i hs; cases h; exact hi (str% "Changed") (by decide) hs
    split at h
    · rename_i hs; cases h; exact hi (str% "Added") (by decide) hs
    split at h
    · rename_i hs; cases h; exact hi (str% "Removed") (by decide) hs
    cases h

example : valueEnum CompareMethod.idents (str% "Exact-WORST") = some .exactWorst ∧ valueEnum OutputFormat.idents (str% "CSV") = some .csv
    ∧ valueEnum CompareMethod.idents (str% "exact_worst") = none := by decide
/-- The derived `Deserialize` of `OutputFormat`, which nothing uses, has other names than `FromStr`. -/
example : serdeKebab (str% "CSV") = str% "c-s-v" ∧ clapKebab (str% "CSV") = str% "csv" := by decide

end Swc
