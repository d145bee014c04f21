/-
C08–C11: two-dimensional (ref-time, proof-size) equations.
-/
import Verif.Props.Cyclic

namespace Swc

open Std Spec Term

/-! ### C09: simplify never fails -/

/-- C09: `simplify` returns Ok for every equation and dimension (no `unreachable!`, no error, so the
`expect("Must simplify term")` of `compare_files` never fires), and the result is the equation with every weight literal replaced by
its component: shape, variables and plain scalars are kept. -/
theorem C09_simplify_total (d : Dimension) (t : ChromaticTerm) : simplify d t = .ok (project d t) := by
  unfold simplify
  induction t with
  | value w => cases d <;> simp [forValues, simplifyLeaf, project]
  | scalar n => rfl
  | var x => rfl
  | add l r ihl ihr => simp [forValues, ihl, ihr, project]
  | mul l r ihl ihr => simp [forValues, ihl, ihr, project]

theorem occurs_project (d : Dimension) (x : Str) (t : ChromaticTerm) : Occurs x (project d t) ↔ Occurs x t := by
  induction t with
  | value w => simp [project, not_occurs_value]
  | scalar n => simp [project, not_occurs_scalar]
  | var y => simp [project, occurs_var]
  | add l r ihl ihr => simp [project, occurs_add, ihl, ihr]
  | mul l r ihl ihr => simp [project, occurs_mul, ihl, ihr]

/-- C09: simplifying keeps the variables, so it keeps the sets of free variables (relative to equally bound scopes). -/
theorem C09_simplify_vars (d : Dimension) (t : ChromaticTerm) (s : SimpleTerm) (h : simplify d t = .ok s) (x : Str) :
    Occurs x s ↔ Occurs x t := by
  rw [C09_simplify_total] at h
  cases h
  exact occurs_project d x t

theorem denote_project (d : Dimension) (ρ : Str → Nat) (t : ChromaticTerm) : denote ρ (project d t) = cvalue d ρ t := by
  induction t with
  | value w => rfl
  | scalar n => rfl
  | var x => rfl
  | add l r ihl ihr => simp [project, denote, cvalue, ihl, ihr]
  | mul l r ihl ihr => simp [project, denote, cvalue, ihl, ihr]

/-- C09: simplifying keeps the value in the chosen dimension. -/
theorem C09_simplify_value (d : Dimension) (t : ChromaticTerm) (s : SimpleTerm) (h : simplify d t = .ok s) (ρ : Str → Nat) :
    denote ρ s = cvalue d ρ t := by
  rw [C09_simplify_total] at h
  cases h
  exact denote_project d ρ t

/-- The two-dimensional equation `(300, 7) * n + READ` simplified to proof size. -/
example : simplify .proof (.add (.mul (.value ⟨300, 7⟩) (.var (str% "n"))) (.var (str% "READ")))
    = .ok (.add (.mul (.value 7) (.var (str% "n"))) (.var (str% "READ"))) := by decide

/-! ### C08: two-dimensional evaluation agrees with one-dimensional evaluation -/

/-- The one-dimensional scope matching a two-dimensional one. -/
def projectScope (d : Dimension) (ctx : ChromaticScope) : SimpleScope := ctx.map fun p => (p.1, project d p.2)

theorem binding_projectScope (d : Dimension) (ctx : ChromaticScope) (x : Str) :
    binding (projectScope d ctx) x = (binding ctx x).map (project d) := by
  induction ctx with
  | nil => rfl
  | cons p ctx ih =>
    obtain ⟨k, v⟩ := p
    simp only [projectScope, List.map_cons, binding]
    split
    · rfl
    · exact ih

theorem addU128_get {b : Build} {w v : Weight} {t p : Nat} (ht : addU128 b w.time v.time = .ok t)
    (hp : addU128 b w.proof v.proof = .ok p) (d : Dimension) : addU128 b (w.get d) (v.get d) = .ok ((⟨t, p⟩ : Weight).get d) := by
  cases d
  · exact ht
  · exact hp

theorem mulU128_comm (b : Build) (x y : Nat) : mulU128 b x y = mulU128 b y x := by
  simp only [mulU128, Nat.mul_comm x y]

theorem bind_eq_ok {α β : Type} {x : Res α} {f : α → Res β} {b : β} (h : (x >>= f) = .ok b) : ∃ a, x = .ok a ∧ f a = .ok b := by
  cases x with
  | ok a => exact ⟨a, rfl, h⟩
  | err m => cases h
  | panic => cases h
  | diverge => cases h

theorem mulScalar_get {b : Build} {w v : Weight} {n : Nat} (h : w.mulScalar b n = .ok v) (d : Dimension) :
    mulU128 b (w.get d) n = .ok (v.get d) := by
  unfold Weight.mulScalar at h
  obtain ⟨t, ht, h⟩ := bind_eq_ok h
  obtain ⟨p, hp, h⟩ := bind_eq_ok h
  cases h
  cases d
  · exact ht
  · exact hp

theorem scalarMul_get {b : Build} {w v : Weight} {n : Nat}
    (h : (do let t ← mulU128 b n w.time; let p ← mulU128 b n w.proof; Res.ok (⟨t, p⟩ : Weight)) = .ok v) (d : Dimension) :
    mulU128 b n (w.get d) = .ok (v.get d) := by
  obtain ⟨t, ht, h⟩ := bind_eq_ok h
  obtain ⟨p, hp, h⟩ := bind_eq_ok h
  cases h
  cases d
  · exact ht
  · exact hp

theorem cevalWith_project {b : Build} {ctx : ChromaticScope} {look : Str → Res Weight} {g : Str → Res Nat} {d : Dimension}
    (hg : ∀ x w, look x = .ok w → g x = .ok (w.get d))
    (hs : ∀ x n, binding ctx x = some (.scalar n) → g x = .ok n)
    {t : ChromaticTerm} {w : Weight} (h : cevalWith b ctx look t = .ok w) :
    evalWith b g (project d t) = .ok (w.get d) := by
  induction t generalizing w with
  | value x =>
    rw [cevalWith] at h
    cases h
    cases d <;> rfl
  | scalar x => rw [cevalWith] at h; cases h
  | var x => rw [cevalWith] at h; exact hg x w h
  | add l r ihl ihr =>
    rw [cevalWith] at h
    obtain ⟨u, hu, h⟩ := bind_eq_ok h
    obtain ⟨v, hv, h⟩ := bind_eq_ok h
    obtain ⟨t, ht, h⟩ := bind_eq_ok h
    obtain ⟨p, hp, h⟩ := bind_eq_ok h
    cases h
    simp only [project, evalWith, ihl hu, ihr hv, Res.bind_ok]
    exact addU128_get ht hp d
  | mul l r ihl ihr =>
    simp only [project, evalWith]
    rw [cevalWith.eq_def] at h
    simp only [Scope.get_def] at h
    split at h
    · rename_i heq; cases heq
    · rename_i heq; cases heq
    · rename_i heq; cases heq
    · rename_i x y heq
      cases heq
      obtain ⟨u, hu, h⟩ := bind_eq_ok h
      rw [ihr hu]
      exact scalarMul_get h d
    · rename_i x y _ heq
      cases heq
      obtain ⟨u, hu, h⟩ := bind_eq_ok h
      rw [ihl hu]
      simp only [project, evalWith, Res.bind_ok]
      rw [mulU128_comm]
      exact scalarMul_get h d
    · rename_i x y _ heq
      cases heq
      split at h
      · rename_i n hb
        obtain ⟨u, hu, h⟩ := bind_eq_ok h
        rw [ihr hu]
        simp only [project, evalWith, hs _ _ hb, Res.bind_ok]
        rw [mulU128_comm]
        exact mulScalar_get h d
      · cases h
      · cases h
    · rename_i x y _ _ heq
      cases heq
      split at h
      · rename_i n hb
        obtain ⟨u, hu, h⟩ := bind_eq_ok h
        rw [ihl hu]
        simp only [project, evalWith, hs _ _ hb, Res.bind_ok]
        exact mulScalar_get h d
      · cases h
      · cases h
    · cases h
    · rename_i heq; cases heq

/-- The look-up function of the two-dimensional evaluator at a given fuel. -/
def clookF (b : Build) (ctx : ChromaticScope) : Nat → Str → Res Weight
  | 0, x => match binding ctx x with
    | some _ => .diverge
    | none => .err (notFoundMsg x)
  | n + 1, x => match binding ctx x with
    | some t => cevalWith b ctx (clookF b ctx n) t
    | none => .err (notFoundMsg x)

theorem cevalF_eq (b : Build) (ctx : ChromaticScope) (n : Nat) (t : ChromaticTerm) :
    cevalF b ctx n t = cevalWith b ctx (clookF b ctx n) t := by
  induction n generalizing t with
  | zero =>
    rw [cevalF]
    congr 1
    funext x
    rw [Scope.get_def, clookF]
    cases binding ctx x <;> rfl
  | succ n ih =>
    rw [cevalF]
    congr 1
    funext x
    rw [Scope.get_def, clookF]
    cases binding ctx x with
    | none => rfl
    | some t => exact ih t

theorem clookF_project {b : Build} {ctx : ChromaticScope} (d : Dimension) (n : Nat) (x : Str) (w : Weight)
    (h : clookF b ctx n x = .ok w) : look b (projectScope d ctx) x = .ok (w.get d) := by
  induction n generalizing x w with
  | zero =>
    rw [clookF] at h
    cases hb : binding ctx x with
    | none => rw [hb] at h; cases h
    | some t => rw [hb] at h; cases h
  | succ n ih =>
    rw [clookF] at h
    cases hb : binding ctx x with
    | none => rw [hb] at h; cases h
    | some t =>
      rw [hb] at h
      rw [look_eq, binding_projectScope, hb, Option.map_some]
      simp only
      rw [eval_eq]
      refine cevalWith_project ih ?_ h
      intro y m hm
      refine look_num (u := .scalar m) ?_ (.inl rfl)
      rw [binding_projectScope, hm]; rfl

/-- C08: whenever evaluating a two-dimensional equation returns a weight, simplifying to a dimension and evaluating in the matching
one-dimensional scope returns that dimension of the weight. Any scope (bindings may be equations), both build profiles. -/
theorem C08_chromatic_eval_agrees (b : Build) (ctx : ChromaticScope) (t : ChromaticTerm) (w : Weight) (d : Dimension)
    (s : SimpleTerm) (hw : ceval b t ctx = .ok w) (hs : simplify d t = .ok s) :
    eval b s (projectScope d ctx) = .ok (match d with | .time => w.time | .proof => w.proof) := by
  rw [C09_simplify_total] at hs
  cases hs
  rw [ceval, cevalF_eq] at hw
  rw [eval_eq]
  have := cevalWith_project (g := look b (projectScope d ctx)) (d := d) (fun x w h => clookF_project d _ x w h)
    (fun y m hm => look_num (u := .scalar m) (by rw [binding_projectScope, hm]; rfl) (.inl rfl)) hw
  rw [this]
  cases d <;> rfl

/-- `(300, 7) * n + READ` with `n = 3`, `READ = (25, 0)`. -/
def exCTerm : ChromaticTerm := .add (.mul (.value ⟨300, 7⟩) (.var (str% "n"))) (.var (str% "READ"))
/-- Its scope. -/
def exCCtx : ChromaticScope := [(str% "READ", .value ⟨25, 0⟩), (str% "n", .scalar 3)]

example : ceval .debug exCTerm exCCtx = .ok ⟨925, 21⟩
    ∧ eval .debug (project .time exCTerm) (projectScope .time exCCtx) = .ok 925
    ∧ eval .debug (project .proof exCTerm) (projectScope .proof exCCtx) = .ok 21 := by decide

/-- The converse fails: the one-dimensional evaluation of a product of two weights works, the two-dimensional one panics. -/
theorem C08_converse_false : ∃ (t : ChromaticTerm) (n : Nat),
    eval .release (project .time t) [] = .ok n ∧ ceval .release t [] = .panic :=
  ⟨.mul (.value ⟨2, 1⟩) (.value ⟨3, 1⟩), 6, by decide⟩

/-! ### C10: splice_add is addition -/

/-- C10: in either dimension and for every assignment, the value of `a.splice_add(b)` is the value of `a` plus the value of `b`. -/
theorem C10_splice_add (a c : ChromaticTerm) (d : Dimension) (ρ : Str → Nat) :
    cvalue d ρ (spliceAdd a c) = cvalue d ρ a + cvalue d ρ c := by
  fun_induction spliceAdd a c with
  | case1 t1 p1 t2 p2 ih1 ih2 => simp only [cvalue, ih1, ih2]; omega
  | case2 x y h => cases d <;> simp [cvalue, h.1, h.2]
  | case3 x y h h' => cases d <;> simp [cvalue, h'.1, h'.2]
  | case4 x y h h' => simp [cvalue]
  | case5 s o h1 h2 => simp [cvalue]

/-- C10: the variables of the spliced equation are those of the two operands. -/
theorem C10_splice_add_vars (a c : ChromaticTerm) (x : Str) : Occurs x (spliceAdd a c) ↔ Occurs x a ∨ Occurs x c := by
  fun_induction spliceAdd a c with
  | case1 t1 p1 t2 p2 ih1 ih2 => simp only [occurs_add, ih1, ih2]; grind
  | case2 x y h => simp [not_occurs_value]
  | case3 x y h h' => simp [not_occurs_value]
  | case4 x y h h' => simp [occurs_add, not_occurs_value]
  | case5 s o h1 h2 => simp [occurs_add]

/-- Orthogonal weights are merged into one literal, others become a sum. -/
example : spliceAdd (.value ⟨5, 0⟩) (.value ⟨0, 7⟩) = .value ⟨5, 7⟩
    ∧ spliceAdd (.value ⟨5, 1⟩) (.value ⟨0, 7⟩) = .add (.value ⟨5, 1⟩) (.value ⟨0, 7⟩) := by decide

/-! ### C11: dimensions do not leak -/

/-- C11: turning a one-dimensional equation into a two-dimensional one for `d` preserves its value in `d`. -/
theorem C11_into_chromatic_same (d : Dimension) (t : SimpleTerm) (ρ : Str → Nat) :
    cvalue d ρ (intoChromatic d t) = denote ρ t := by
  induction t with
  | value n => cases d <;> rfl
  | scalar n => cases d <;> rfl
  | var x => rfl
  | add l r ihl ihr => simp [intoChromatic, cvalue, denote, ihl, ihr]
  | mul l r ihl ihr => simp [intoChromatic, cvalue, denote, ihl, ihr]

/-- C11: it contributes zero in the other dimension for all variable values exactly if every product in it contains a number. -/
theorem C11_into_chromatic_other (d : Dimension) (t : SimpleTerm) :
    (∀ ρ, cvalue (other d) ρ (intoChromatic d t) = 0) ↔ Anchored t := by
  constructor
  · intro h
    have h1 := h fun _ => 1
    apply Classical.byContradiction
    intro hn
    have : ∀ s : SimpleTerm, ¬ Anchored s → 0 < cvalue (other d) (fun _ => 1) (intoChromatic d s) := by
      intro s
      induction s with
      | value n => intro h; exact absurd trivial h
      | scalar n => intro h; exact absurd trivial h
      | var x => intro _; simp [intoChromatic, cvalue]
      | add l r ihl ihr =>
        intro h
        simp only [intoChromatic, cvalue]
        by_cases hl : Anchored l
        · have := ihr fun hr => h ⟨hl, hr⟩
          omega
        · have := ihl hl
          omega
      | mul l r ihl ihr =>
        intro h
        simp only [intoChromatic, cvalue]
        exact Nat.mul_pos (ihl fun hl => h (.inl hl)) (ihr fun hr => h (.inr hr))
    have := this t hn
    omega
  · intro h ρ
    induction t with
    | value n => cases d <;> rfl
    | scalar n => cases d <;> rfl
    | var x => exact absurd h id
    | add l r ihl ihr => simp [intoChromatic, cvalue, ihl h.1, ihr h.2]
    | mul l r ihl ihr =>
      rcases h with h | h
      · simp [intoChromatic, cvalue, ihl h]
      · simp [intoChromatic, cvalue, ihr h]

/-- C11: a bare variable contributes its value to BOTH dimensions (so `Weight::from_ref_time(x)` for a variable `x` counts `x` as proof
size too). -/
theorem C11_bare_variable_leaks (d e : Dimension) (x : Str) (ρ : Str → Nat) :
    cvalue e ρ (intoChromatic d (.var x)) = ρ x := rfl

example : Anchored (.mul (.value 1000) (.var (str% "n"))) ∧ ¬ Anchored (.add (.value 5) (.var (str% "n"))) :=
  ⟨.inl trivial, fun h => h.2⟩

end Swc
