/-
Sorted sets and maps: membership, sortedness, extensionality.
-/
import Verif.Model.Basic

namespace Swc

open Std

section Set
variable {α : Type} {cmp : α → α → Ordering}

theorem not_lt_self [ReflCmp cmp] {x : α} (h : cmp x x = .lt) : False := by
  have := ReflCmp.compare_self (cmp := cmp) (a := x)
  rw [h] at this; cases this

theorem not_gt_self [ReflCmp cmp] {x : α} (h : cmp x x = .gt) : False := by
  have := ReflCmp.compare_self (cmp := cmp) (a := x)
  rw [h] at this; cases this

/-- Strictly ascending. -/
abbrev SortedBy (cmp : α → α → Ordering) (l : List α) : Prop := l.Pairwise (fun a b => cmp a b = .lt)

theorem mem_setInsert [LawfulEqCmp cmp] {x y : α} {l : List α} :
    y ∈ setInsert cmp x l ↔ y = x ∨ y ∈ l := by
  induction l with
  | nil => simp [setInsert]
  | cons z l ih =>
    unfold setInsert
    split
    · simp
    · rename_i h
      have : x = z := LawfulEqCmp.eq_of_compare h
      subst this; simp
    · simp only [List.mem_cons, ih]
      constructor
      · rintro (h | h | h) <;> simp [h]
      · rintro (h | h | h) <;> simp [h]

theorem sorted_setInsert [TransCmp cmp] [LawfulEqCmp cmp] {x : α} {l : List α} (h : SortedBy cmp l) :
    SortedBy cmp (setInsert cmp x l) := by
  induction l with
  | nil => simp [setInsert, SortedBy]
  | cons z l ih =>
    unfold setInsert
    have hz := List.pairwise_cons.1 h
    split
    · rename_i hlt
      refine List.pairwise_cons.2 ⟨?_, h⟩
      intro a ha
      rcases List.mem_cons.1 ha with rfl | ha
      · exact hlt
      · exact TransCmp.lt_trans hlt (hz.1 a ha)
    · exact h
    · rename_i hgt
      refine List.pairwise_cons.2 ⟨?_, ih hz.2⟩
      intro a ha
      rcases mem_setInsert.1 ha with rfl | ha
      · exact OrientedCmp.lt_of_gt hgt
      · exact hz.1 a ha

theorem mem_foldl_setInsert [LawfulEqCmp cmp] {y : α} {l acc : List α} :
    y ∈ l.foldl (fun acc x => setInsert cmp x acc) acc ↔ y ∈ l ∨ y ∈ acc := by
  induction l generalizing acc with
  | nil => simp
  | cons z l ih =>
    simp only [List.foldl_cons, ih, mem_setInsert, List.mem_cons]
    constructor
    · rintro (h | h | h) <;> simp [h]
    · rintro ((h | h) | h) <;> simp [h]

theorem sorted_foldl_setInsert [TransCmp cmp] [LawfulEqCmp cmp] {l acc : List α} (h : SortedBy cmp acc) :
    SortedBy cmp (l.foldl (fun acc x => setInsert cmp x acc) acc) := by
  induction l generalizing acc with
  | nil => exact h
  | cons z l ih => exact ih (sorted_setInsert h)

@[simp] theorem mem_setOfList [LawfulEqCmp cmp] {y : α} {l : List α} : y ∈ setOfList cmp l ↔ y ∈ l := by
  simp [setOfList, mem_foldl_setInsert]

theorem sorted_setOfList [TransCmp cmp] [LawfulEqCmp cmp] (l : List α) : SortedBy cmp (setOfList cmp l) :=
  sorted_foldl_setInsert (by simp)

@[simp] theorem mem_setUnion [LawfulEqCmp cmp] {y : α} {a b : List α} : y ∈ setUnion cmp a b ↔ y ∈ a ∨ y ∈ b := by
  simp [setUnion]

theorem sorted_setUnion [TransCmp cmp] [LawfulEqCmp cmp] (a b : List α) : SortedBy cmp (setUnion cmp a b) :=
  sorted_setOfList _

/-- A strictly sorted list is determined by its elements. -/
theorem sorted_ext [TransCmp cmp] [LawfulEqCmp cmp] {a b : List α} (ha : SortedBy cmp a) (hb : SortedBy cmp b)
    (h : ∀ x, x ∈ a ↔ x ∈ b) : a = b := by
  induction a generalizing b with
  | nil =>
    cases b with
    | nil => rfl
    | cons y b => exact absurd ((h y).2 (by simp)) (by simp)
  | cons x a ih =>
    cases b with
    | nil => exact absurd ((h x).1 (by simp)) (by simp)
    | cons y b =>
      have hxa := List.pairwise_cons.1 ha
      have hyb := List.pairwise_cons.1 hb
      have hxy : x = y := by
        rcases List.mem_cons.1 ((h x).1 (by simp)) with rfl | hx
        · rfl
        · rcases List.mem_cons.1 ((h y).2 (by simp)) with rfl | hy
          · rfl
          · have h1 := hyb.1 x hx
            have h2 := hxa.1 y hy
            exact (not_lt_self (TransCmp.lt_trans h1 h2)).elim
      subst hxy
      congr 1
      refine ih hxa.2 hyb.2 ?_
      intro z
      have hirr : ∀ w, cmp w w ≠ .lt := fun w h => not_lt_self h
      constructor
      · intro hz
        rcases List.mem_cons.1 ((h z).1 (List.mem_cons_of_mem _ hz)) with rfl | hz'
        · exact absurd (hxa.1 _ hz) (hirr _)
        · exact hz'
      · intro hz
        rcases List.mem_cons.1 ((h z).2 (List.mem_cons_of_mem _ hz)) with rfl | hz'
        · exact absurd (hyb.1 _ hz) (hirr _)
        · exact hz'

theorem sorted_nodup [TransCmp cmp] [LawfulEqCmp cmp] {a : List α} (ha : SortedBy cmp a) : a.Nodup := by
  refine List.Pairwise.imp ?_ ha
  intro x y h e
  subst e
  exact not_lt_self h

theorem setOfList_eq_of_sorted [TransCmp cmp] [LawfulEqCmp cmp] {a : List α} (ha : SortedBy cmp a) :
    setOfList cmp a = a :=
  sorted_ext (sorted_setOfList a) ha (by simp)

end Set

namespace BMap
variable {T : Type}

/-- Invariant of `BTreeMap`: keys strictly ascending. -/
abbrev Sorted (m : BMap T) : Prop := m.Pairwise (fun a b => compare a.1 b.1 = .lt)

theorem keys_insert {k k' : Str} {v : T} {m : BMap T} :
    k' ∈ (insert k v m).map (·.1) ↔ k' = k ∨ k' ∈ m.map (·.1) := by
  induction m with
  | nil => simp [insert]
  | cons p m ih =>
    obtain ⟨q, w⟩ := p
    unfold insert
    split
    · simp
    · rename_i h
      have : k = q := LawfulEqCmp.eq_of_compare h
      subst this; simp
    · simp only [List.map_cons, List.mem_cons, ih]
      constructor
      · rintro (h | h | h) <;> simp [h]
      · rintro (h | h | h) <;> simp [h]

theorem sorted_iff_keys {m : BMap T} : Sorted m ↔ SortedBy compare (m.map (·.1)) := by
  simp [Sorted, SortedBy, List.pairwise_map]

theorem sorted_insert {k : Str} {v : T} {m : BMap T} (h : Sorted m) : Sorted (insert k v m) := by
  induction m with
  | nil => simp [insert, Sorted]
  | cons p m ih =>
    obtain ⟨q, w⟩ := p
    unfold insert
    have hz := List.pairwise_cons.1 h
    split
    · rename_i hlt
      refine List.pairwise_cons.2 ⟨?_, h⟩
      intro a ha
      rcases List.mem_cons.1 ha with rfl | ha
      · exact hlt
      · exact TransCmp.lt_trans hlt (hz.1 a ha)
    · rename_i heq
      have : k = q := LawfulEqCmp.eq_of_compare heq
      subst this
      exact List.pairwise_cons.2 ⟨hz.1, hz.2⟩
    · rename_i hgt
      refine List.pairwise_cons.2 ⟨?_, ih hz.2⟩
      intro a ha
      have : a.1 ∈ (insert k v m).map (·.1) := List.mem_map.2 ⟨a, ha, rfl⟩
      rcases keys_insert.1 this with h' | h'
      · rw [h']; exact OrientedCmp.lt_of_gt hgt
      · obtain ⟨c, hc, hca⟩ := List.mem_map.1 h'
        rw [← hca]; exact hz.1 c hc

theorem get_cons {k q : Str} {w : T} {m : BMap T} :
    get ((q, w) :: m) k = if k = q then some w else get m k := by
  unfold get
  by_cases h : k = q
  · subst h; simp [List.lookup]
  · have : (k == q) = false := by simp [h]
    simp [List.lookup, h, this]

@[simp] theorem get_nil {k : Str} : get ([] : BMap T) k = none := rfl

theorem get_insert {k k' : Str} {v : T} {m : BMap T} :
    get (insert k v m) k' = if k' = k then some v else get m k' := by
  induction m with
  | nil => simp [insert, get_cons]
  | cons p m ih =>
    obtain ⟨q, w⟩ := p
    unfold insert
    split
    · simp [get_cons]
    · rename_i heq
      have : k = q := LawfulEqCmp.eq_of_compare heq
      subst this
      simp only [get_cons]
      split <;> rfl
    · rename_i hgt
      simp only [get_cons, ih]
      by_cases h1 : k' = q
      · have : k' ≠ k := by
          rintro rfl
          subst h1
          exact not_gt_self hgt
        subst h1
        simp [this]
      · simp [h1]

theorem get_isSome_iff {k : Str} {m : BMap T} : (get m k).isSome ↔ k ∈ m.map (·.1) := by
  induction m with
  | nil => simp
  | cons p m ih =>
    obtain ⟨q, w⟩ := p
    rw [get_cons]
    by_cases h : k = q
    · simp [h]
    · simp [h, ih]

theorem get_eq_none_iff {k : Str} {m : BMap T} : get m k = none ↔ k ∉ m.map (·.1) := by
  rw [← get_isSome_iff]
  simp

theorem mem_of_get {k : Str} {v : T} {m : BMap T} (h : get m k = some v) : (k, v) ∈ m := by
  induction m with
  | nil => simp at h
  | cons p m ih =>
    obtain ⟨q, w⟩ := p
    rw [get_cons] at h
    by_cases h' : k = q
    · simp [h'] at h; simp [h, h']
    · simp [h'] at h; exact List.mem_cons_of_mem _ (ih h)

theorem get_of_mem {k : Str} {v : T} {m : BMap T} (hs : Sorted m) (h : (k, v) ∈ m) : get m k = some v := by
  induction m with
  | nil => simp at h
  | cons p m ih =>
    obtain ⟨q, w⟩ := p
    have hz := List.pairwise_cons.1 hs
    rw [get_cons]
    rcases List.mem_cons.1 h with h | h
    · cases h; simp
    · have hlt := hz.1 _ h
      have : k ≠ q := by
        rintro rfl
        exact not_lt_self hlt
      simp [this, ih hz.2 h]

theorem sorted_insertAll {l : List (Str × T)} {m : BMap T} (h : Sorted m) : Sorted (insertAll m l) := by
  unfold insertAll
  induction l generalizing m with
  | nil => exact h
  | cons p l ih => exact ih (sorted_insert h)

/-- Sorted maps are determined by `get`. -/
theorem ext {a b : BMap T} (ha : Sorted a) (hb : Sorted b) (h : ∀ k, get a k = get b k) : a = b := by
  induction a generalizing b with
  | nil =>
    cases b with
    | nil => rfl
    | cons p b =>
      obtain ⟨q, w⟩ := p
      have := h q
      simp [get_cons] at this
  | cons p a ih =>
    obtain ⟨q, w⟩ := p
    cases b with
    | nil =>
      have := h q
      simp [get_cons] at this
    | cons p' b =>
      obtain ⟨q', w'⟩ := p'
      have hpa := List.pairwise_cons.1 ha
      have hpb := List.pairwise_cons.1 hb
      have nga : get a q = none := by
        rw [get_eq_none_iff]
        intro hm
        obtain ⟨c, hc, hcq⟩ := List.mem_map.1 hm
        have := hpa.1 c hc
        rw [hcq] at this
        exact not_lt_self this
      have ngb : get b q' = none := by
        rw [get_eq_none_iff]
        intro hm
        obtain ⟨c, hc, hcq⟩ := List.mem_map.1 hm
        have := hpb.1 c hc
        rw [hcq] at this
        exact not_lt_self this
      have hq : q = q' := by
        apply Decidable.byContradiction
        intro hne
        have h1 : (get b q).isSome := by
          have := h q
          rw [get_cons, get_cons] at this
          simp [hne] at this
          rw [← this]; rfl
        have h2 : (get a q').isSome := by
          have := h q'
          rw [get_cons, get_cons] at this
          simp [Ne.symm hne] at this
          rw [this]; rfl
        rw [get_isSome_iff] at h1 h2
        obtain ⟨c, hc, hcq⟩ := List.mem_map.1 h1
        obtain ⟨d, hd, hdq⟩ := List.mem_map.1 h2
        have l1 := hpb.1 c hc
        have l2 := hpa.1 d hd
        rw [hcq] at l1
        rw [hdq] at l2
        exact not_lt_self (TransCmp.lt_trans l1 l2)
      subst hq
      have hw : w = w' := by
        have := h q
        simpa [get_cons] using this
      subst hw
      congr 1
      refine ih hpa.2 hpb.2 ?_
      intro k
      by_cases hk : k = q
      · subst hk; rw [nga, ngb]
      · have := h k
        simpa [get_cons, hk] using this

theorem length_insert_le {k : Str} {v : T} {m : BMap T} : m.length ≤ (insert k v m).length := by
  induction m with
  | nil => simp
  | cons p m ih =>
    obtain ⟨q, w⟩ := p
    unfold insert
    split <;> simp <;> omega

end BMap
end Swc
