/-
C53: names of pallets.
-/
import Verif.Model.Path
import Verif.Props.Parse

namespace Swc

namespace Spec

/-- A component that `Path::components` can yield for a non-root position. -/
def CompOk : Comp → Prop
  | .root => False
  | .cur => True
  | .parent => True
  | .normal s => s ≠ [] ∧ '/' ∉ s ∧ s ≠ str% "." ∧ s ≠ str% ".."

/-- A path without a leading slash. -/
def Relative (p : Path) : Prop := ∀ c ∈ p, CompOk c

/-- A path as `Path::components` yields it: the root only in front. -/
def PathOk (p : Path) : Prop := Relative p ∨ ∃ q, p = .root :: q ∧ Relative q

end Spec

open Spec

theorem compStr_inj {a c : Comp} (ha : CompOk a) (hc : CompOk c) (h : Path.compStr a = Path.compStr c) : a = c := by
  cases a <;> cases c <;> simp_all [Path.compStr, CompOk]

theorem compStr_ne_nil {c : Comp} (hc : CompOk c) : Path.compStr c ≠ [] := by
  cases c <;> simp_all [Path.compStr, CompOk]

theorem compStr_noSlash {c : Comp} (hc : CompOk c) : '/' ∉ Path.compStr c := by
  cases c <;> simp_all [Path.compStr, CompOk]

/-- A slash-free prefix followed by a slash or the end is determined. -/
theorem split_slash {a c r s : Str} (ha : '/' ∉ a) (hc : '/' ∉ c) (h : a ++ '/' :: r = c ++ '/' :: s) : a = c ∧ r = s := by
  induction a generalizing c with
  | nil =>
    cases c with
    | nil => simp_all
    | cons x c => simp at h; simp [← h.1] at hc
  | cons x a ih =>
    cases c with
    | nil => simp at h; simp [h.1] at ha
    | cons y c =>
      simp only [List.cons_append, List.cons.injEq] at h
      obtain ⟨rfl, h⟩ := h
      obtain ⟨rfl, rfl⟩ := ih (fun h' => ha (.tail _ h')) (fun h' => hc (.tail _ h')) h
      exact ⟨rfl, rfl⟩

theorem join_inj {l k : List Str} (hl : ∀ s ∈ l, s ≠ [] ∧ '/' ∉ s) (hk : ∀ s ∈ k, s ≠ [] ∧ '/' ∉ s)
    (h : joinStr (str% "/") l = joinStr (str% "/") k) : l = k := by
  induction l generalizing k with
  | nil =>
    match k with
    | [] => rfl
    | [x] => simp [joinStr] at h; exact absurd h.symm (by simpa using (hk x (by simp)).1)
    | x :: y :: k => simp [joinStr] at h
  | cons a l ih =>
    match l, k with
    | [], [] => simp [joinStr] at h; exact absurd h (hl a (by simp)).1
    | [], [x] => simp [joinStr] at h; rw [h]
    | [], x :: y :: k =>
      simp only [joinStr] at h
      have := (hl a (by simp)).2
      rw [h] at this
      simp at this
    | b :: l, [] => simp [joinStr] at h
    | b :: l, [x] =>
      simp only [joinStr] at h
      have := (hk x (by simp)).2
      rw [← h] at this
      simp at this
    | b :: l, x :: y :: k =>
      simp only [joinStr, List.append_assoc, List.cons_append, List.nil_append] at h
      obtain ⟨h1, h2⟩ := split_slash (hl a (by simp)).2 (hk x (by simp)).2 h
      rw [h1, ih (fun s hs => hl s (.tail _ hs)) (fun s hs => hk s (.tail _ hs)) h2]

theorem relative_strs {p : Path} (h : Relative p) : ∀ s ∈ p.map Path.compStr, s ≠ [] ∧ '/' ∉ s := by
  intro s hs
  obtain ⟨c, hc, rfl⟩ := List.mem_map.1 hs
  exact ⟨compStr_ne_nil (h c hc), compStr_noSlash (h c hc)⟩

theorem relative_map_inj {p q : Path} (hp : Relative p) (hq : Relative q) (h : p.map Path.compStr = q.map Path.compStr) : p = q := by
  induction p generalizing q with
  | nil => cases q with
    | nil => rfl
    | cons => simp at h
  | cons a p ih => cases q with
    | nil => simp at h
    | cons c q =>
      simp only [List.map_cons, List.cons.injEq] at h
      rw [compStr_inj (hp a (.head _)) (hq c (.head _)) h.1, ih (fun x hx => hp x (.tail _ hx)) (fun x hx => hq x (.tail _ hx)) h.2]

theorem display_relative {p : Path} (h : Relative p) : Path.display p = joinStr (str% "/") (p.map Path.compStr) := by
  unfold Path.display
  split
  · exact (h .root (by simp)).elim
  · rfl

theorem display_root (q : Path) : Path.display (.root :: q) = '/' :: joinStr (str% "/") (q.map Path.compStr) := by
  cases q with
  | nil => rfl
  | cons c q => rfl

theorem display_relative_head {p : Path} (h : Relative p) (r : Str) : Path.display p ≠ '/' :: r := by
  rw [display_relative h]
  have hs := relative_strs h
  match p with
  | [] => simp [joinStr]
  | [c] =>
    simp only [List.map_cons, List.map_nil, joinStr]
    intro h'
    have := (hs (Path.compStr c) (by simp)).2
    rw [h'] at this
    simp at this
  | c :: d :: p =>
    simp only [List.map_cons, joinStr]
    intro h'
    obtain ⟨h1, h2⟩ := hs (Path.compStr c) (by simp)
    cases hc : Path.compStr c with
    | nil => exact h1 hc
    | cons x s =>
      rw [hc] at h' h2
      simp at h'
      simp [h'.1] at h2

/-- C53: the text of a path determines it. -/
theorem C53_display_injective {p q : Path} (hp : PathOk p) (hq : PathOk q) (h : Path.display p = Path.display q) : p = q := by
  rcases hp with hp | ⟨p, rfl, hp⟩ <;> rcases hq with hq | ⟨q, rfl, hq⟩
  · rw [display_relative hp, display_relative hq] at h
    exact relative_map_inj hp hq (join_inj (relative_strs hp) (relative_strs hq) h)
  · rw [display_root] at h
    exact absurd h (display_relative_head hp _)
  · rw [display_root] at h
    exact absurd h.symm (display_relative_head hq _)
  · rw [display_root, display_root] at h
    simp only [List.cons.injEq, true_and] at h
    rw [relative_map_inj hp hq (join_inj (relative_strs hp) (relative_strs hq) h)]

theorem stripPrefix_append (repo rel : Path) : Path.stripPrefix repo (repo ++ rel) = some rel := by
  induction repo with
  | nil => rfl
  | cons b bs ih => rw [List.cons_append, Path.stripPrefix, if_pos rfl, ih]

theorem stripPrefix_iff (repo p rel : Path) : Path.stripPrefix repo p = some rel ↔ p = repo ++ rel := by
  constructor
  · intro h
    induction repo generalizing p with
    | nil => cases h; rfl
    | cons b bs ih =>
      cases p with
      | nil => cases h
      | cons c p =>
        rw [Path.stripPrefix] at h
        split at h
        · rename_i hb; subst hb; rw [ih p h]; rfl
        · cases h
  · rintro rfl; exact stripPrefix_append repo rel

/-- C53: a file below the repository is named by its relative path, wherever the repository is. -/
theorem C53_relocation (repo rel : Path) : PathStripping.repoRelative.strip repo (repo ++ rel) = .ok (Path.display rel) := by
  rw [PathStripping.strip, stripPrefix_append]
  rfl

/-- C53: a file outside the repository is named by its whole path. -/
theorem C53_outside (repo p : Path) (h : ∀ rel, p ≠ repo ++ rel) : PathStripping.repoRelative.strip repo p = .ok (Path.display p) := by
  rw [PathStripping.strip]
  cases hs : Path.stripPrefix repo p with
  | none => rfl
  | some rel => exact absurd ((stripPrefix_iff repo p rel).1 hs) (h rel)

/-- C53: different files below the repositories get different names. -/
theorem C53_injective (repo repo' rel rel' : Path) (hp : PathOk rel) (hq : PathOk rel')
    (h : PathStripping.repoRelative.strip repo (repo ++ rel) = PathStripping.repoRelative.strip repo' (repo' ++ rel')) : rel = rel' := by
  rw [C53_relocation, C53_relocation] at h
  exact C53_display_injective hp hq (Res.ok.inj h)

/-- C53: with file names only, the name is the last component; the call panics if there is none (`..`, `/` or the empty path). -/
theorem C53_file_name (repo p : Path) :
    (∀ s, PathStripping.fileName.strip repo p = .ok s ↔ ∃ dir, p = dir ++ [.normal s])
    ∧ (PathStripping.fileName.strip repo p = .panic ↔ ∀ dir s, p ≠ dir ++ [.normal s]) := by
  have key : ∀ s, p.fileName = some s ↔ ∃ dir, p = dir ++ [.normal s] := by
    intro s
    unfold Path.fileName
    constructor
    · intro h
      split at h
      · rename_i s' hl
        cases h
        obtain ⟨dir, hd⟩ := List.getLast?_eq_some_iff.1 hl
        exact ⟨dir, hd⟩
      · cases h
    · rintro ⟨dir, rfl⟩
      rw [List.getLast?_concat]
  rw [PathStripping.strip]
  cases hf : p.fileName with
  | none =>
    refine ⟨fun s => ⟨fun h => (by cases h), fun h => ?_⟩, ⟨fun _ dir s h => ?_, fun _ => rfl⟩⟩
    · rw [← key, hf] at h; cases h
    · have := (key s).2 ⟨dir, h⟩; rw [hf] at this; cases this
  | some x =>
    refine ⟨fun s => ?_, ⟨fun h => (by cases h), fun h => ?_⟩⟩
    · rw [← key, hf]
      constructor
      · intro h; cases h; rfl
      · intro h; cases h; rfl
    · obtain ⟨dir, hd⟩ := (key x).1 hf
      exact absurd hd (h dir x)

/-- C53: equally named files in different directories collide. -/
theorem C53_collision (repo dir dir' : Path) (s : Str) :
    PathStripping.fileName.strip repo (dir ++ [.normal s]) = PathStripping.fileName.strip repo (dir' ++ [.normal s]) := by
  rw [((C53_file_name repo _).1 s).2 ⟨dir, rfl⟩, ((C53_file_name repo _).1 s).2 ⟨dir', rfl⟩]

/-- `/r/runtime/a.rs` in the repository `/r` is `runtime/a.rs`. -/
example : PathStripping.repoRelative.strip [.root, .normal (str% "r")] [.root, .normal (str% "r"), .normal (str% "runtime"), .normal (str% "a.rs")]
    = .ok (str% "runtime/a.rs") := by decide
example : PathOk [.normal (str% "runtime"), .normal (str% "a.rs")] := by
  left; intro c hc; simp at hc; rcases hc with rfl | rfl <;> exact ⟨by decide, by decide, by decide, by decide⟩
/-- A relative path outside the repository can have the same name as a file inside: `C53_injective` needs both to be inside. -/
example : PathStripping.repoRelative.strip [.root, .normal (str% "r")] [.root, .normal (str% "r"), .normal (str% "a.rs")]
    = PathStripping.repoRelative.strip [.root, .normal (str% "r")] [.normal (str% "a.rs")] := by decide

end Swc
