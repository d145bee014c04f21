/-
A small world in which git does what it is documented to do, and the theorems about clones in it.
-/
import Verif.Props.Clone
import Verif.Props.CloneFalse

namespace Swc

open Spec

/-! ### Commits -/

/-- Directories with one weight file. -/
def exCommitTree : GlobNode :=
  .dir (.cons (str% "substrate") (.dir (.cons (str% "frame") (.dir (.cons (str% "p") (.dir (.cons (str% "src") (.dir (.cons (str% "weights.rs") .file .nil)) .nil)) .nil)) .nil)) .nil)

/-- Its name. -/
def exCommitPath : List Str := [str% "substrate", str% "frame", str% "p", str% "src", str% "weights.rs"]

/-- A commit. -/
def exCommit (slope : Str) : Snapshot := ⟨exCommitTree, fun _ => .ok (exGenText slope)⟩

/-- An older commit. -/
abbrev exOldCommit : Snapshot := exCommit (str% "7_000_000")
/-- A newer one. -/
abbrev exNewCommit : Snapshot := exCommit (str% "9_000000_u64")

/-- One of the two. -/
def ExCommit (c : Snapshot) : Prop := c = exOldCommit ∨ c = exNewCommit

theorem exCommit_leads {ns : List Str} {n : GlobNode} (h : LeadsTo exCommitTree ns n) : ∃ k, k ≤ 5 ∧ ns = exCommitPath.take k := by
  unfold exCommitTree at h
  cases h with
  | here => exact ⟨0, by decide, rfl⟩
  | down h1 h => cases h1 with
    | later h => cases h
    | first => cases h with
      | here => exact ⟨1, by decide, rfl⟩
      | down h1 h => cases h1 with
        | later h => cases h
        | first => cases h with
          | here => exact ⟨2, by decide, rfl⟩
          | down h1 h => cases h1 with
            | later h => cases h
            | first => cases h with
              | here => exact ⟨3, by decide, rfl⟩
              | down h1 h => cases h1 with
                | later h => cases h
                | first => cases h with
                  | here => exact ⟨4, by decide, rfl⟩
                  | down h1 h => cases h1 with
                    | later h => cases h
                    | first => cases h with
                      | here => exact ⟨5, by decide, rfl⟩

theorem exCommit_tidy : Tidy exCommitTree := by
  intro ns es h
  unfold exCommitTree at h
  cases h with
  | here => decide
  | down h1 h => cases h1 with
    | later h => cases h
    | first => cases h with
      | here => decide
      | down h1 h => cases h1 with
        | later h => cases h
        | first => cases h with
          | here => decide
          | down h1 h => cases h1 with
            | later h => cases h
            | first => cases h with
              | here => decide
              | down h1 h => cases h1 with
                | later h => cases h
                | first => cases h with
                  | here => decide
                  | down h1 h => cases h1 with
                    | later h => cases h
                    | first => cases h

theorem exCommit_file : LeadsTo exCommitTree exCommitPath .file :=
  .down .first (.down .first (.down .first (.down .first (.down .first .here))))

theorem exCommit_isDir : LeadsTo exCommitTree [str% "substrate"] (.dir (.cons (str% "frame") (.dir (.cons (str% "p") (.dir (.cons (str% "src")
    (.dir (.cons (str% "weights.rs") .file .nil)) .nil)) .nil)) .nil)) := .down .first .here

/-- The names of files and directories. -/
def exCommitNames : List Str :=
  [str% "substrate", str% "substrate/frame", str% "substrate/frame/p", str% "substrate/frame/p/src", str% "substrate/frame/p/src/weights.rs"]

theorem exCommit_names {c : Snapshot} (hc : ExCommit c) {x : Str} (h : HasPath c x) : x ∈ exCommitNames := by
  have ht : c.tree = exCommitTree := by rcases hc with rfl | rfl <;> rfl
  obtain ⟨ns, n, h1, h2, rfl⟩ := h
  rw [ht] at h1
  obtain ⟨k, hk, rfl⟩ := exCommit_leads h1
  match k, hk with
  | 0, _ => exact absurd rfl h2
  | 1, _ => decide
  | 2, _ => decide
  | 3, _ => decide
  | 4, _ => decide
  | 5, _ => decide

theorem exCommit_weightFile {ns : List Str} (h : WeightFile ns) : ns.head? = some (str% "substrate") → ns.getLast? = some (str% "weights.rs") := by
  cases h with
  | frame dirs => intro _; rw [List.getLast?_append]; rfl
  | runtime => intro h; exact absurd (Option.some.inj h) (by decide)
  | bridge => intro h; exact absurd (Option.some.inj h) (by decide)
  | parachain => intro h; exact absurd (Option.some.inj h) (by decide)
  | xcm => intro h; exact absurd (Option.some.inj h) (by decide)
  | pallet => intro h; exact absurd (Option.some.inj h) (by decide)

theorem exCommit_only {ns : List Str} {n : GlobNode} (h1 : LeadsTo exCommitTree ns n) (h2 : WeightFile ns) : ns = exCommitPath := by
  obtain ⟨k, hk, rfl⟩ := exCommit_leads h1
  have h3 := exCommit_weightFile h2
  match k, hk with
  | 0, _ => exact absurd h2 (by intro h; generalize hn : List.take 0 exCommitPath = l at h; cases h <;> cases hn)
  | 1, _ => exact absurd (h3 rfl) (by decide)
  | 2, _ => exact absurd (h3 rfl) (by decide)
  | 3, _ => exact absurd (h3 rfl) (by decide)
  | 4, _ => exact absurd (h3 rfl) (by decide)
  | 5, _ => rfl

/-- The functions in the file. -/
def exCommitFns (slope : Nat) : List Located := (exGenFns slope).map (⟨str% "substrate/frame/p/src/weights.rs", .parts, ·⟩) ++ []

theorem exCommit_functions {slope : Nat} {t : Str} (h : GenFile .parts (exGenFns slope) (exGenText t)) (hs : slope ≤ 2 ^ 64 - 1) :
    SdkFunctionsAt (exCommit t) (exCommitFns slope) := by
  refine ⟨[exCommitPath.map .normal], List.pairwise_singleton _ _, fun f => ?_, by decide, ?_⟩
  · rw [List.mem_singleton]
    constructor
    · rintro rfl
      exact ⟨exCommitPath, .file, exCommit_file, .frame [str% "p"], by decide, rfl⟩
    · rintro ⟨ns, n, h1, h2, -, rfl⟩
      rw [exCommit_only h1 h2]
  · exact .file rfl h (by simp [exGenFns]) (exGen_ok hs) (by decide) .nil

/-! ### The origin -/

/-- References by name. -/
def exRefMap (l : List (Str × Snapshot)) : Str → Option Snapshot := fun x => l.lookup x

theorem exRefMap_mem {l : List (Str × Snapshot)} {x : Str} {c : Snapshot} (h : exRefMap l x = some c) : (x, c) ∈ l := by
  induction l with
  | nil => nomatch h
  | cons a l ih =>
    obtain ⟨y, d⟩ := a
    unfold exRefMap at h ih
    rw [List.lookup_cons] at h
    by_cases e : x = y
    · subst e
      simp only [beq_self_eq_true] at h
      cases h
      exact List.mem_cons_self
    · have : (x == y) = false := by simpa using e
      rw [this] at h
      exact List.mem_cons_of_mem _ (ih h)

theorem exRefMap_name {l : List (Str × Snapshot)} {x : Str} (h : exRefMap l x ≠ none) : x ∈ l.map (·.1) := by
  obtain ⟨c, hc⟩ := Option.ne_none_iff_exists'.1 h
  exact List.mem_map.2 ⟨_, exRefMap_mem hc, rfl⟩

theorem exRefMap_room {l : List (Str × Snapshot)} {x : Str} (h : ∀ y ∈ l.map (·.1), ¬ (y ++ str% "/") <+: x ∧ ¬ (x ++ str% "/") <+: y) : RoomFor (exRefMap l) x :=
  fun y hy => h y (exRefMap_name hy)

/-- Two branches and four tags, one of which has moved, and one of which is new. -/
def exOrigin : Refs where
  heads := exRefMap [(str% "master", exNewCommit), (str% "release", exOldCommit)]
  tags := exRefMap [(str% "v0", exOldCommit), (str% "v1", exNewCommit), (str% "v2", exNewCommit)]
  commits := fun _ => none

/-- The output of `git ls-remote`. -/
def exListed : List Ref :=
  let h := str% "0123456789012345678901234567890123456789"
  [⟨h, false, str% "master"⟩, ⟨h, false, str% "release"⟩, ⟨h, true, str% "v0"⟩, ⟨h, true, str% "v1"⟩, ⟨h, true, str% "v2"⟩]

/-- The clones that can occur. -/
structure ExClone (k : Clone) : Prop where
  origin : k.origin = exOrigin
  online : k.online = true
  other : ∀ x, k.other x = none
  commits : ∀ x, k.here.commits x = none
  colons : ∀ x, ':' ∈ x → k.here.heads x = none ∧ k.here.tags x = none ∧ k.seen x = none
  branch : ∀ b, k.branch = some b → ':' ∉ b
  head : ExCommit k.head
  known : ∀ x c, k.here.heads x = some c ∨ k.here.tags x = some c ∨ k.seen x = some c → ExCommit c

theorem ExClone.lastSeen {k : Clone} (h : ExClone k) {x : Str} {c : Snapshot} (hc : k.lastSeen x = some c) : ExCommit c := by
  unfold Clone.lastSeen at hc
  split at hc
  · exact h.known _ _ (.inr (.inr hc))
  · nomatch hc

theorem ExClone.denotes {k : Clone} (h : ExClone k) {x : Str} {c : Snapshot} (hc : k.Denotes x = some c) : ExCommit c := by
  unfold Clone.Denotes at hc
  rw [h.commits, h.other] at hc
  cases h1 : k.here.tags x with
  | some d => rw [h1] at hc; cases hc; exact h.known _ _ (.inr (.inl h1))
  | none =>
    rw [h1] at hc
    cases h2 : k.here.heads x with
    | some d => rw [h2] at hc; cases hc; exact h.known _ _ (.inl h2)
    | none =>
      rw [h2] at hc
      cases h3 : k.lastSeen x with
      | some d => rw [h3] at hc; cases hc; exact h.lastSeen h3
      | none => rw [h3] at hc; nomatch hc

/-- What git may do. -/
structure ExGit (k : Clone) (args : List Str) (out : GitOut) (k' : Clone) : Prop where
  fine : ExClone k'
  fetchInto : ∀ x y, RefName x → RefName y → args = [str% "fetch", str% "origin", x ++ ':' :: y] → DoesFetchInto k x y out k'
  fetch : ∀ x, RefName x → args = [str% "fetch", str% "origin", x] → DoesFetch k x out k'
  reset : ∀ x, x.head? ≠ some '-' → args = [str% "reset", str% "--hard", x] → DoesReset k x out k'
  checkout : ∀ x, RefName x → args = [str% "checkout", x] → DoesCheckout k x out k'
  fetchAll : args = [str% "fetch", str% "--all", str% "--prune", str% "--tags"] → DoesFetchAll k out k'
  list : args = [str% "ls-remote", str% "--tags", str% "--heads"] → DoesList k out k' ∧ out = .exited true (output exListed) [] true
  messages : ∃ b o, out = .exited b o [] true

/-- Git succeeds. -/
abbrev exDone : GitOut := .exited true [] [] true
/-- Git fails. -/
abbrev exFailed : GitOut := .exited false [] [] true

theorem exDone_success : Success exDone := ⟨_, _, _, rfl⟩
theorem exFailed_success : ¬ Success exFailed := by rintro ⟨_, _, _, h⟩; cases h

theorem exSame (k : Clone) : SameFiles k k := ⟨rfl, rfl, rfl, fun _ _ h => h⟩
theorem exAsBefore (k : Clone) : AsBefore k k := ⟨rfl, rfl, rfl, rfl, rfl⟩

theorem exFetchInto {k : Clone} (hk : ExClone k) (x y : Str) (hx : RefName x) (hy : RefName y) :
    ∃ b k', ExClone k' ∧ DoesFetchInto k x y (.exited b [] [] true) k' := by
  by_cases hp : ∃ c, k.origin.OnlyBranch x c ∧ k.here.heads y = none ∧ RoomFor k.seen x ∧ RoomFor k.here.heads y
  · obtain ⟨c, hc, -⟩ := hp
    have hex : ExCommit c := by
      have := hc.2.2
      rw [hk.origin] at this
      have := exRefMap_mem this
      simp only [List.mem_cons, Prod.mk.injEq, List.not_mem_nil, or_false] at this
      rcases this with ⟨-, rfl⟩ | ⟨-, rfl⟩
      · exact .inr rfl
      · exact .inl rfl
    refine ⟨true, { k with here := { k.here with heads := setAt k.here.heads y c }, seen := setAt k.seen x c }, ?_, ?_, fun t => .inl rfl⟩
    · refine ⟨hk.origin, hk.online, hk.other, hk.commits, fun z hz => ?_, hk.branch, hk.head, fun z d hd => ?_⟩
      · obtain ⟨a1, a2, a3⟩ := hk.colons z hz
        refine ⟨(if_neg ?_).trans a1, a2, (if_neg ?_).trans a3⟩
        · rintro rfl; exact hy.chars.1 hz
        · rintro rfl; exact hx.chars.1 hz
      · dsimp only [setAt] at hd
        rcases hd with hd | hd | hd
        · split at hd
          · cases hd; exact hex
          · exact hk.known _ _ (.inl hd)
        · exact hk.known _ _ (.inr (.inl hd))
        · split at hd
          · cases hd; exact hex
          · exact hk.known _ _ (.inr (.inr hd))
    · intro c' _ hc' _ _ _
      have : c' = c := by have := hc.2.2; rw [hc'.2.2] at this; exact Option.some.inj this
      subst this
      exact ⟨exDone_success, rfl, rfl, rfl, rfl⟩
  · exact ⟨false, k, hk, fun c _ h1 h2 h3 h4 => absurd ⟨c, h1, h2, h3, h4⟩ hp, fun t => .inl rfl⟩

theorem exFetch {k : Clone} (hk : ExClone k) (x : Str) (hx : RefName x) : ∃ b k', ExClone k' ∧ DoesFetch k x (.exited b [] [] true) k' := by
  have hno : ∀ c, k.origin.commits x ≠ some c := by intro c; rw [hk.origin]; exact nofun
  by_cases hp : k.origin.knows x ∧ ∀ c, k.origin.OnlyBranch x c → RoomFor k.seen x
  · by_cases hb : ∃ c, k.origin.OnlyBranch x c
    · obtain ⟨c, hc⟩ := hb
      have hex : ExCommit c := by
        have := hc.2.2
        rw [hk.origin] at this
        have := exRefMap_mem this
        simp only [List.mem_cons, Prod.mk.injEq, List.not_mem_nil, or_false] at this
        rcases this with ⟨-, rfl⟩ | ⟨-, rfl⟩
        · exact .inr rfl
        · exact .inl rfl
      refine ⟨true, { k with seen := setAt k.seen x c }, ?_, ?_⟩
      · refine ⟨hk.origin, hk.online, hk.other, hk.commits, fun z hz => ?_, hk.branch, hk.head, fun z d hd => ?_⟩
        · obtain ⟨a1, a2, a3⟩ := hk.colons z hz
          refine ⟨a1, a2, (if_neg ?_).trans a3⟩
          rintro rfl; exact hx.chars.1 hz
        · dsimp only [setAt] at hd
          rcases hd with hd | hd | hd
          · exact hk.known _ _ (.inl hd)
          · exact hk.known _ _ (.inr (.inl hd))
          · split at hd
            · cases hd; exact hex
            · exact hk.known _ _ (.inr (.inr hd))
      · refine ⟨⟨rfl, rfl, rfl, fun _ _ h => h⟩, rfl, fun y hy => if_neg hy, fun _ _ _ => exDone_success, fun _ c' hc' => ?_, fun h => ?_, fun _ c h => absurd h (hno c),
          fun h => absurd exDone_success h⟩
        · have : c' = c := by have := hc.2.2; rw [hc'.2.2] at this; exact Option.some.inj this
          subst this
          exact if_pos rfl
        · rcases h with h | h
          · exact absurd exDone_success h
          · exact absurd ⟨c, hc⟩ h
    · exact ⟨true, k, hk, exSame k, rfl, fun _ _ => rfl, fun _ _ _ => exDone_success, fun _ c hc => absurd ⟨c, hc⟩ hb, fun _ => rfl, fun _ c h => absurd h (hno c),
        fun h => absurd exDone_success h⟩
  · exact ⟨false, k, hk, exSame k, rfl, fun _ _ => rfl, fun _ h1 h2 => absurd ⟨h1, h2⟩ hp, fun h => absurd h exFailed_success, fun _ => rfl,
      fun h => absurd h exFailed_success, fun _ => exAsBefore k⟩

theorem exReset {k : Clone} (hk : ExClone k) (x : Str) : ∃ b k', ExClone k' ∧ DoesReset k x (.exited b [] [] true) k' := by
  by_cases hp : HasPath k.head x
  · exact ⟨false, k, hk, fun _ _ h => absurd hp h, fun _ => ⟨exFailed_success, exAsBefore k⟩⟩
  · cases hd : k.Denotes x with
    | none => exact ⟨false, k, hk, fun _ h _ => absurd (hd.symm.trans h) nofun, fun _ => ⟨exFailed_success, exAsBefore k⟩⟩
    | some c =>
      refine ⟨true, { k with head := c, here := { k.here with heads := movedTo k.here.heads k.branch c } }, ?_, ?_, ?_⟩
      · have hex := hk.denotes hd
        refine ⟨hk.origin, hk.online, hk.other, hk.commits, fun z hz => ?_, hk.branch, hex, fun z d h => ?_⟩
        · obtain ⟨a1, a2, a3⟩ := hk.colons z hz
          refine ⟨?_, a2, a3⟩
          have hb := hk.branch
          dsimp only
          generalize k.branch = b at hb
          cases b with
          | none => exact a1
          | some b => exact (if_neg (by rintro rfl; exact hb _ rfl hz)).trans a1
        · dsimp only at h
          rcases h with h | h
          · generalize k.branch = b at h
            cases b with
            | none => exact hk.known _ _ (.inl h)
            | some b =>
              dsimp only [movedTo, setAt] at h
              split at h
              · cases h; exact hex
              · exact hk.known _ _ (.inl h)
          · exact hk.known _ _ (.inr h)
      · intro c' hc' _
        rw [hd] at hc'
        cases hc'
        exact ⟨exDone_success, rfl, rfl, rfl, rfl, rfl, rfl⟩
      · rintro (h | h)
        · rw [hd] at h; nomatch h
        · exact absurd h hp

theorem exSwitch {k : Clone} (hk : ExClone k) {c : Snapshot} (hc : ExCommit c) (b : Option Str) (hb : ∀ x, b = some x → ':' ∉ x) :
    ∃ k', ExClone k' ∧ SwitchedTo k c b k' := by
  refine ⟨{ k with head := c, branch := b, here := { k.here with heads := movedTo k.here.heads b c } }, ?_, rfl, rfl, rfl, rfl, rfl, rfl⟩
  refine ⟨hk.origin, hk.online, hk.other, hk.commits, fun z hz => ?_, hb, hc, fun z d h => ?_⟩
  · obtain ⟨a1, a2, a3⟩ := hk.colons z hz
    refine ⟨?_, a2, a3⟩
    cases b with
    | none => exact a1
    | some b => exact (if_neg (by rintro rfl; exact hb _ rfl hz)).trans a1
  · dsimp only at h
    rcases h with h | h
    · cases b with
      | none => exact hk.known _ _ (.inl h)
      | some b =>
        dsimp only [movedTo, setAt] at h
        split at h
        · cases h; exact hc
        · exact hk.known _ _ (.inl h)
    · exact hk.known _ _ (.inr h)

theorem exCheckout {k : Clone} (hk : ExClone k) (x : Str) (hx : RefName x) : ∃ b k', ExClone k' ∧ DoesCheckout k x (.exited b [] [] true) k' := by
  have hcol : ∀ y, some x = some y → ':' ∉ y := fun y h => by cases h; exact hx.chars.1
  cases h0 : k.here.heads x with
  | some c =>
    obtain ⟨k', h1, h2⟩ := exSwitch hk (hk.known _ _ (.inl h0)) (some x) hcol
    refine ⟨true, k', h1, fun c' h => ?_, ?_, ?_, ?_, ?_, ?_, ?_⟩
    · rw [h0] at h; cases h; exact ⟨exDone_success, h2⟩
    all_goals (intros; simp_all)
  | none =>
    cases h1 : k.Denotes x with
    | some c =>
      obtain ⟨k', h2, h3⟩ := exSwitch hk (hk.denotes h1) none nofun
      refine ⟨true, k', h2, ?_, fun c' _ h => ?_, ?_, ?_, ?_, ?_, ?_⟩
      · intro c h; rw [h0] at h; nomatch h
      · rw [h1] at h; cases h; exact ⟨exDone_success, h3⟩
      all_goals (intros; simp_all)
    | none =>
      by_cases hp : HasPath k.head x
      · cases h2 : k.seen x with
        | some c =>
          refine ⟨false, k, hk, ?_, ?_, ?_, ?_, ?_, fun _ _ _ _ _ => ⟨exFailed_success, exAsBefore k⟩, ?_⟩
          all_goals (intros; simp_all)
        | none =>
          refine ⟨true, k, hk, ?_, ?_, ?_, ?_, fun _ _ _ _ => ⟨exDone_success, exAsBefore k⟩, ?_, ?_⟩
          all_goals (intros; simp_all)
      · cases h2 : k.seen x with
        | some c =>
          by_cases hr : RoomFor k.here.heads x
          · obtain ⟨k', h3, h4⟩ := exSwitch hk (hk.known _ _ (.inr (.inr h2))) (some x) hcol
            refine ⟨true, k', h3, ?_, ?_, fun c' _ _ h _ _ => ?_, ?_, ?_, ?_, ?_⟩
            · intro c h; rw [h0] at h; nomatch h
            · intro c _ h; rw [h1] at h; nomatch h
            · rw [h2] at h; cases h; exact ⟨exDone_success, h4⟩
            all_goals (intros; simp_all)
          · refine ⟨false, k, hk, ?_, ?_, ?_, fun _ _ _ _ _ => ⟨exFailed_success, exAsBefore k⟩, ?_, ?_, ?_⟩
            all_goals (intros; simp_all)
        | none =>
          refine ⟨false, k, hk, ?_, ?_, ?_, ?_, ?_, ?_, fun _ _ _ _ => ⟨exFailed_success, exAsBefore k⟩⟩
          all_goals (intros; simp_all)

theorem exOrigin_known {x : Str} {c : Snapshot} (h : exOrigin.heads x = some c ∨ exOrigin.tags x = some c) : ExCommit c ∧ ':' ∉ x := by
  rcases h with h | h
  · have := exRefMap_mem h
    simp only [List.mem_cons, Prod.mk.injEq, List.not_mem_nil, or_false] at this
    rcases this with ⟨rfl, rfl⟩ | ⟨rfl, rfl⟩
    · exact ⟨.inr rfl, by decide⟩
    · exact ⟨.inl rfl, by decide⟩
  · have := exRefMap_mem h
    simp only [List.mem_cons, Prod.mk.injEq, List.not_mem_nil, or_false] at this
    rcases this with ⟨rfl, rfl⟩ | ⟨rfl, rfl⟩ | ⟨rfl, rfl⟩
    · exact ⟨.inl rfl, by decide⟩
    · exact ⟨.inr rfl, by decide⟩
    · exact ⟨.inr rfl, by decide⟩

theorem exFetchAll {k : Clone} (hk : ExClone k) : ∃ b k', ExClone k' ∧ DoesFetchAll k (.exited b [] [] true) k' := by
  by_cases hp : ∀ t c c', k.here.tags t = some c → k.origin.tags t = some c' → c = c'
  · refine ⟨true, { k with here := { k.here with tags := fun t => k.here.tags t <|> k.origin.tags t }, seen := k.origin.heads }, ?_, ⟨rfl, rfl, rfl, fun _ _ h => h⟩,
      fun t c h => ?_, fun t c h h' => ?_, fun _ => .inr rfl, fun _ _ => exDone_success, fun _ t c h => ?_, fun _ => rfl⟩
    · refine ⟨hk.origin, hk.online, hk.other, hk.commits, fun z hz => ?_, hk.branch, hk.head, fun z d h => ?_⟩
      · obtain ⟨a1, a2, a3⟩ := hk.colons z hz
        refine ⟨a1, ?_, ?_⟩
        · dsimp only
          rw [a2, hk.origin]
          by_contra h
          obtain ⟨c, hc⟩ := Option.ne_none_iff_exists'.1 h
          exact (exOrigin_known (.inr hc)).2 hz
        · dsimp only
          rw [hk.origin]
          by_contra h
          obtain ⟨c, hc⟩ := Option.ne_none_iff_exists'.1 h
          exact (exOrigin_known (.inl hc)).2 hz
      · dsimp only at h
        rw [hk.origin] at h
        rcases h with h | h | h
        · exact hk.known _ _ (.inl h)
        · cases e : k.here.tags z with
          | some c => rw [e] at h; cases h; exact hk.known _ _ (.inr (.inl e))
          | none => rw [e] at h; exact (exOrigin_known (.inr h)).1
        · exact (exOrigin_known (.inl h)).1
    · show (k.here.tags t <|> k.origin.tags t) = _
      rw [h]; rfl
    · replace h' : (k.here.tags t <|> k.origin.tags t) = some c := h'
      rw [h] at h'
      exact h'
    · show (k.here.tags t <|> k.origin.tags t) = _
      cases e : k.here.tags t with
      | some c' => cases hp t c' c e h; rfl
      | none => exact h
  · exact ⟨false, k, hk, exSame k, fun _ _ h => h, fun t c h h' => absurd (h.symm.trans h') nofun, fun _ => .inl rfl, fun _ h => absurd h hp,
      fun h => absurd h exFailed_success, fun h => absurd h exFailed_success⟩

theorem exListing {k : Clone} (hk : ExClone k) : DoesList k (.exited true (output exListed) [] true) k := by
  refine ⟨exAsBefore k, fun _ => ⟨_, _, _, rfl⟩, fun o e u h => ?_⟩
  cases h
  refine ⟨exListed, rfl, ?_, fun x => ⟨fun h => ?_, ?_⟩, fun x h => ?_, fun r hr ht => .inl ?_⟩
  · intro r hr
    simp only [exListed, List.mem_cons, List.not_mem_nil, or_false] at hr
    rcases hr with rfl | rfl | rfl | rfl | rfl <;> exact ⟨by decide, by decide⟩
  · rw [hk.origin] at h
    have := exRefMap_name h
    simp only [List.map_cons, List.map_nil, List.mem_cons, List.not_mem_nil, or_false] at this
    rcases this with rfl | rfl
    · exact ⟨_, List.mem_cons_self, rfl, rfl⟩
    · exact ⟨_, List.mem_cons_of_mem _ List.mem_cons_self, rfl, rfl⟩
  · rintro ⟨r, hr, ht, rfl⟩
    rw [hk.origin]
    simp only [exListed, List.mem_cons, List.not_mem_nil, or_false] at hr
    rcases hr with rfl | rfl | rfl | rfl | rfl
    · exact nofun
    · exact nofun
    all_goals cases ht
  · rw [hk.origin] at h
    have := exRefMap_name h
    simp only [List.map_cons, List.map_nil, List.mem_cons, List.not_mem_nil, or_false] at this
    rcases this with rfl | rfl | rfl
    · exact ⟨_, .tail _ (.tail _ (.head _)), rfl, rfl⟩
    · exact ⟨_, .tail _ (.tail _ (.tail _ (.head _))), rfl, rfl⟩
    · exact ⟨_, .tail _ (.tail _ (.tail _ (.tail _ (.head _)))), rfl, rfl⟩
  · rw [hk.origin]
    simp only [exListed, List.mem_cons, List.not_mem_nil, or_false] at hr
    rcases hr with rfl | rfl | rfl | rfl | rfl
    · cases ht
    · cases ht
    all_goals exact nofun

theorem split_unique {x y x' y' : Str} (h : x ++ ':' :: y = x' ++ ':' :: y') (hx : ':' ∉ x) (hx' : ':' ∉ x') : x = x' ∧ y = y' := by
  induction x generalizing x' with
  | nil =>
    cases x' with
    | nil => cases h; exact ⟨rfl, rfl⟩
    | cons a x' => cases h; exact absurd List.mem_cons_self hx'
  | cons a x ih =>
    cases x' with
    | nil => cases h; exact absurd List.mem_cons_self hx
    | cons b x' =>
      rw [List.cons_append, List.cons_append, List.cons.injEq] at h
      obtain ⟨h1, h2⟩ := ih h.2 (fun h => hx (List.mem_cons_of_mem _ h)) (fun h => hx' (List.mem_cons_of_mem _ h))
      exact ⟨by rw [h.1, h1], h2⟩

theorem exGit_exists {k : Clone} (hk : ExClone k) (args : List Str) : ∃ r : GitOut × Clone, ExGit k args r.1 r.2 := by
  by_cases c1 : ∃ x y, RefName x ∧ RefName y ∧ args = [str% "fetch", str% "origin", x ++ ':' :: y]
  · obtain ⟨x, y, hx, hy, rfl⟩ := c1
    obtain ⟨b, k', h1, h2⟩ := exFetchInto hk x y hx hy
    refine ⟨(.exited b [] [] true, k'), h1, ?_, ?_, ?_, ?_, ?_, ?_, _, _, rfl⟩
    · intro x' y' hx' hy' h
      obtain ⟨rfl, rfl⟩ := split_unique (List.cons.inj (List.cons.inj (List.cons.inj h).2).2).1 hx.chars.1 hx'.chars.1
      exact h2
    · intro x' hx' h
      have := (List.cons.inj (List.cons.inj (List.cons.inj h).2).2).1
      exact absurd (this ▸ List.mem_append_right _ List.mem_cons_self) hx'.chars.1
    all_goals (intros; simp_all)
  by_cases c2 : ∃ x, RefName x ∧ args = [str% "fetch", str% "origin", x]
  · obtain ⟨x, hx, rfl⟩ := c2
    obtain ⟨b, k', h1, h2⟩ := exFetch hk x hx
    refine ⟨(.exited b [] [] true, k'), h1, fun x y hx hy h => absurd ⟨x, y, hx, hy, h⟩ c1, ?_, ?_, ?_, ?_, ?_, _, _, rfl⟩
    · intro x' hx' h
      cases (List.cons.inj (List.cons.inj (List.cons.inj h).2).2).1
      exact h2
    all_goals (intros; simp_all)
  by_cases c3 : ∃ x, args = [str% "reset", str% "--hard", x]
  · obtain ⟨x, rfl⟩ := c3
    obtain ⟨b, k', h1, h2⟩ := exReset hk x
    refine ⟨(.exited b [] [] true, k'), h1, fun x y hx hy h => absurd ⟨x, y, hx, hy, h⟩ c1, fun x hx h => absurd ⟨x, hx, h⟩ c2, ?_, ?_, ?_, ?_, _, _, rfl⟩
    · intro x' hx' h
      cases (List.cons.inj (List.cons.inj (List.cons.inj h).2).2).1
      exact h2
    all_goals (intros; simp_all)
  by_cases c4 : ∃ x, RefName x ∧ args = [str% "checkout", x]
  · obtain ⟨x, hx, rfl⟩ := c4
    obtain ⟨b, k', h1, h2⟩ := exCheckout hk x hx
    refine ⟨(.exited b [] [] true, k'), h1, fun x y hx hy h => absurd ⟨x, y, hx, hy, h⟩ c1, fun x hx h => absurd ⟨x, hx, h⟩ c2, fun x _ h => absurd ⟨x, h⟩ c3, ?_, ?_, ?_, _, _, rfl⟩
    · intro x' hx' h
      cases (List.cons.inj (List.cons.inj h).2).1
      exact h2
    all_goals (intros; simp_all)
  by_cases c5 : args = [str% "fetch", str% "--all", str% "--prune", str% "--tags"]
  · subst c5
    obtain ⟨b, k', h1, h2⟩ := exFetchAll hk
    exact ⟨(.exited b [] [] true, k'), h1, fun x y hx hy h => absurd ⟨x, y, hx, hy, h⟩ c1, fun x hx h => absurd ⟨x, hx, h⟩ c2, fun x _ h => absurd ⟨x, h⟩ c3,
      fun x hx h => absurd ⟨x, hx, h⟩ c4, fun _ => h2, fun h => by simp at h, _, _, rfl⟩
  · exact ⟨(.exited true (output exListed) [] true, k), hk, fun x y hx hy h => absurd ⟨x, y, hx, hy, h⟩ c1, fun x hx h => absurd ⟨x, hx, h⟩ c2, fun x _ h => absurd ⟨x, h⟩ c3,
      fun x hx h => absurd ⟨x, hx, h⟩ c4, fun h => absurd h c5, fun _ => ⟨exListing hk, rfl⟩, _, _, rfl⟩

/-! ### The world -/

/-- The place of the repository. -/
abbrev exCloneBase : Path := [.normal (str% "r"), .normal (str% "polkadot-sdk")]

/-- The disk while a commit is checked out. -/
def exCloneDisk (c : Snapshot) : GlobDisk :=
  let root : GlobNode := .dir (.cons (str% "r") (.dir (.cons (str% "polkadot-sdk") c.tree .nil)) .nil)
  ⟨root, ⟨root, []⟩⟩

/-- A world with one clone. -/
noncomputable def exCloneWorld : World where
  State := { k : Clone // ExClone k }
  git k args := ((exGit_exists k.2 args).choose.1, ⟨(exGit_exists k.2 args).choose.2, (exGit_exists k.2 args).choose_spec.fine⟩)
  glob k p := match globOn (exCloneDisk k.1.head) p with
    | some l => .ok (l.map .ok)
    | none => .error (str% "pattern")
  fs k p := match p with
    | .normal _ :: .normal _ :: p => k.1.head.fs p
    | _ => .error (str% "no such file")

/-- What is in the clone. -/
def exCloneView (k : { k : Clone // ExClone k }) : Clone := k.1

theorem exClone_git (k : { k : Clone // ExClone k }) (args : List Str) :
    ExGit k.1 args (exCloneWorld.git k args).1 (exCloneView (exCloneWorld.git k args).2) := (exGit_exists k.2 args).choose_spec

theorem exClone_real : RealGit exCloneWorld exCloneView where
  hashes s h hc := absurd (s.2.commits h) hc
  colons s x hx _ := by
    obtain ⟨a1, a2, a3⟩ := s.2.colons x hx
    unfold Clone.Denotes Clone.lastSeen exCloneView
    rw [s.2.commits, s.2.other, a1, a2]
    split
    · obtain ⟨t, rfl⟩ := ‹_ <+: x›
      have ht : ':' ∈ t := by simpa using hx
      have := (s.2.colons t ht).2.2
      show (none <|> none <|> none <|> s.1.seen t <|> none) = none
      rw [this]
      rfl
    · rfl
  fetchInto s x y hx hy := (exClone_git s _).fetchInto x y hx hy rfl
  notations s x h := absurd (s.2.other _) h
  fetch s x hx := (exClone_git s _).fetch x hx rfl
  reset s x hx := (exClone_git s _).reset x hx rfl
  checkout s x hx := (exClone_git s _).checkout x hx rfl
  fetchAll s := (exClone_git s _).fetchAll rfl
  list s := ((exClone_git s _).list rfl).1

theorem exClone_nobody : NobodyPushes exCloneWorld exCloneView := fun s args => by
  have h := (exClone_git s args).fine
  exact ⟨h.origin.trans s.2.origin.symm, h.online.trans s.2.online.symm⟩

theorem exCommit_tree {c : Snapshot} (h : ExCommit c) : c.tree = exCommitTree := by rcases h with rfl | rfl <;> rfl

theorem exClone_workspace : Workspace exCloneWorld exCloneView (fun s => exCloneDisk s.1.head) exCloneBase where
  onDisk s p := by
    constructor
    · intro l h
      show (match globOn (exCloneDisk s.1.head) p with | some l => _ | none => _) = _
      rw [h]
    · intro h
      refine ⟨str% "pattern", ?_⟩
      show (match globOn (exCloneDisk s.1.head) p with | some l => _ | none => _) = _
      rw [h]
  place s := by
    refine ⟨_, .relative (by simp) (.name ⟨by decide, by decide, by decide⟩ rfl (.name ⟨by decide, by decide, by decide⟩ rfl .stop)), ?_⟩
    refine ⟨?_, fun _ _ _ _ => Iff.rfl⟩
    show Tidy s.1.head.tree
    rw [exCommit_tree s.2.head]
    exact exCommit_tidy
  texts s sn ns n _ _ := by
    show (match plainNames ((sn :: ns).map Comp.normal) with | some ns => s.1.head.text ns | none => _) = _
    rw [plainNames_map]
    rfl

theorem exClone_peaceful : Peaceful exCloneWorld exClickSite.srv.env.syn where
  files s p c h := by
    have hc : c = exGenText (str% "7_000_000") ∨ c = exGenText (str% "9_000000_u64") := by
      have key : ∀ q, s.1.head.fs q = .ok c → c = exGenText (str% "7_000_000") ∨ c = exGenText (str% "9_000000_u64") := by
        intro q hq
        unfold Snapshot.fs at hq
        cases e : plainNames q with
        | none => rw [e] at hq; nomatch hq
        | some ns =>
          rw [e] at hq
          rcases s.2.head with h | h
          · rw [h] at hq; exact .inl (Except.ok.inj hq).symm
          · rw [h] at hq; exact .inr (Except.ok.inj hq).symm
      replace h : (match p with | .normal _ :: .normal _ :: p => s.1.head.fs p | _ => .error (str% "no such file")) = .ok c := h
      split at h
      · exact key _ h
      · nomatch h
    rcases hc with rfl | rfl
    · exact C90_generated ⟨_, _, exGen_7, by decide, exGen_ok (by decide)⟩
    · exact C90_generated ⟨_, _, exGen_9, by decide, exGen_ok (by decide)⟩
  messages s args out err u _ h := by
    obtain ⟨b, o, h'⟩ := (exClone_git s args).messages
    rw [h'] at h
    cases h
    rfl
  references s out err u h := by
    have h' := ((exClone_git s [str% "ls-remote", str% "--tags", str% "--heads"]).list rfl).2
    rw [h'] at h
    cases h
    refine ⟨exListed, rfl, ?_⟩
    intro r hr
    simp only [exListed, List.mem_cons, List.not_mem_nil, or_false] at hr
    rcases hr with rfl | rfl | rfl | rfl | rfl <;> exact ⟨⟨by decide, by decide⟩, by decide⟩

/-! ### A clone -/

/-- In this clone, `master` is not up to date, the tag `v1` has another commit than at the origin, and a branch is checked out that the origin does not have. -/
def exClone : Clone where
  here := ⟨exRefMap [(str% "master", exOldCommit), (str% "wip", exNewCommit)], exRefMap [(str% "v0", exOldCommit), (str% "v1", exOldCommit)], fun _ => none⟩
  seen := exRefMap [(str% "master", exOldCommit)]
  other := fun _ => none
  branch := some (str% "wip")
  head := exNewCommit
  origin := exOrigin
  online := true

theorem exClone_ok : ExClone exClone where
  origin := rfl
  online := rfl
  other _ := rfl
  commits _ := rfl
  colons x hx := by
    refine ⟨?_, ?_, ?_⟩
    all_goals
      by_contra h
      have := exRefMap_name h
      simp only [List.map_cons, List.map_nil, List.mem_cons, List.not_mem_nil, or_false] at this
    · rcases this with rfl | rfl <;> revert hx <;> decide
    · rcases this with rfl | rfl <;> revert hx <;> decide
    · subst this; revert hx; decide
  branch b h := by cases h; decide
  head := .inr rfl
  known x c h := by
    rcases h with h | h | h
    all_goals
      have := exRefMap_mem h
      simp only [List.mem_cons, Prod.mk.injEq, List.not_mem_nil, or_false] at this
    · rcases this with ⟨-, rfl⟩ | ⟨-, rfl⟩
      · exact .inl rfl
      · exact .inr rfl
    · rcases this with ⟨-, rfl⟩ | ⟨-, rfl⟩ <;> exact .inl rfl
    · rcases this with ⟨-, rfl⟩
      exact .inl rfl

/-- The state of the world. -/
def exCloneState : exCloneWorld.State := ⟨exClone, exClone_ok⟩

theorem refName_of {x : Str} (h : (x ≠ [] ∧ x.head? ≠ some '-' ∧ x.head? ≠ some '+') ∧ (':' ∉ x ∧ '*' ∉ x ∧ '^' ∉ x) ∧ x ≠ str% "tag" ∧
    (¬ str% "refs/" <+: x ∧ ¬ str% "heads/" <+: x ∧ ¬ str% "tags/" <+: x ∧ ¬ str% "remotes/" <+: x)) : RefName x := ⟨h.1, h.2.1, h.2.2.1, h.2.2.2⟩

theorem noPath {c : Snapshot} (hc : ExCommit c) {x : Str} (h : x ∉ exCommitNames) : ¬ HasPath c x := fun h' => h (exCommit_names hc h')

theorem exClone_clear {x : Str} (h1 : exClone.here.tags (atOrigin x) = none) (h2 : exClone.here.heads (atOrigin x) = none) (h3 : atOrigin x ∉ exCommitNames) :
    Unshadowed exClone x := ⟨h1, h2, noPath (.inr rfl) h3⟩

theorem exClone_shortName {x : Str} (h : x.length < 40) : ¬ IsHash x := fun h' => absurd h'.1 (Nat.not_le.2 h)

/-- With `--git-pull` and `--git-force`, `master` is the newest commit of the origin, although in the clone it is not. -/
example : exClone.here.heads (str% "master") = some exOldCommit ∧ exClone.seen (str% "master") = some exOldCommit ∧
    ∃ G s', CheckedOut exCloneWorld (str% "master") true true exCloneState G s' ∧ (exCloneView s').head = exNewCommit := by
  refine ⟨rfl, rfl, ?_⟩
  obtain ⟨G, s', h1, h2, -⟩ := C99_checkout exClone_real (s := exCloneState) (pull := true) (x := str% "master") (c := exNewCommit) (refName_of (by decide))
    (.newest (exClone_clear rfl rfl (by decide)) rfl rfl ⟨rfl, rfl, rfl⟩ (exRefMap_room (by decide)))
  exact ⟨G, s', h1, h2⟩

/-- Without `--git-pull`, it is the commit last seen; a tag is what it is in the clone. -/
example : (∃ G s', CheckedOut exCloneWorld (str% "master") false true exCloneState G s' ∧ (exCloneView s').head = exOldCommit) ∧
    ∃ G s', CheckedOut exCloneWorld (str% "v0") false true exCloneState G s' ∧ (exCloneView s').head = exOldCommit := by
  constructor
  · obtain ⟨G, s', h1, h2, -⟩ := C99_checkout exClone_real (s := exCloneState) (pull := false) (x := str% "master") (c := exOldCommit) (refName_of (by decide))
      (.last (exClone_clear rfl rfl (by decide)) rfl rfl)
    exact ⟨G, s', h1, h2⟩
  · obtain ⟨G, s', h1, h2, -⟩ := C99_checkout exClone_real (s := exCloneState) (pull := false) (x := str% "v0") (c := exOldCommit) (refName_of (by decide))
      (.tag (exClone_clear rfl rfl (by decide)) rfl (exClone_shortName (by decide)) (noPath (.inr rfl) (by decide)) ⟨⟨by decide, by decide⟩, rfl⟩ nofun)
    exact ⟨G, s', h1, h2⟩

/-! ### A visitor of the page -/

/-- The branches of the origin. -/
def ExBranches (x : Str) (c : Snapshot) : Prop := (x = str% "master" ∧ c = exNewCommit) ∨ (x = str% "release" ∧ c = exOldCommit)
/-- A tag. -/
def ExTags (x : Str) (c : Snapshot) : Prop := x = str% "v0" ∧ c = exOldCommit

theorem exClone_undisputed : Undisputed exOrigin ExBranches ExTags where
  branches x c h := by
    rcases h with ⟨rfl, rfl⟩ | ⟨rfl, rfl⟩
    · exact ⟨⟨rfl, rfl, rfl⟩, exRefMap_room (by decide)⟩
    · exact ⟨⟨rfl, rfl, rfl⟩, exRefMap_room (by decide)⟩
  tags x c h := by
    obtain ⟨rfl, rfl⟩ := h
    exact ⟨rfl, rfl, exClone_shortName (by decide), ⟨by decide, by decide⟩⟩
  free x c h := by rcases h with (⟨rfl, rfl⟩ | ⟨rfl, rfl⟩) | ⟨rfl, rfl⟩ <;> rfl

theorem exClone_wellKept : WellKept exOrigin ExBranches ExTags exClone where
  origin := rfl
  online := rfl
  clear x c h := by
    rcases h with (⟨rfl, rfl⟩ | ⟨rfl, rfl⟩) | ⟨rfl, rfl⟩
    all_goals exact ⟨exClone_clear rfl rfl (by decide), by decide⟩
  room x c h := by
    rcases h with ⟨rfl, rfl⟩ | ⟨rfl, rfl⟩
    all_goals exact exRefMap_room (by decide)
  tags x c h := by
    obtain ⟨rfl, rfl⟩ := h
    exact ⟨rfl, rfl, noPath (.inr rfl) (by decide)⟩

theorem exClone_noFiles : NoSuchFiles exCloneWorld exCloneView ExBranches ExTags := by
  intro s z c hd x d
  have hc := s.2.denotes hd
  refine ⟨fun h => ?_, fun h => ?_⟩
  · rcases h with (⟨rfl, rfl⟩ | ⟨rfl, rfl⟩) | ⟨rfl, rfl⟩
    all_goals exact noPath hc (by decide)
  · obtain ⟨rfl, rfl⟩ := h
    exact noPath hc (by decide)

theorem exCommit_sized : AllSized .asymptotic .time (exCommitFns 9000000) (exCommitFns 7000000) := allSized_of (by decide +kernel)

theorem exCommit_inert : ∀ x, x ∈ exCommitFns 9000000 ∨ x ∈ exCommitFns 7000000 → Inert x.file := by
  intro x hx
  have : x.file = str% "substrate/frame/p/src/weights.rs" := by
    rcases hx with hx | hx <;> simp [exCommitFns, exGenFns] at hx <;> rcases hx with rfl | rfl <;> rfl
  rw [this]
  unfold Inert
  decide

/-- Two branches are chosen on the start page, and the button is pressed; the page that comes shows the report on the newest commits of the origin, neither of which is
checked out in the clone under its name before. -/
theorem C99_example : ∃ p q, Visit exClickSite.names (fun _ => none)
      [.repo (str% "polkadot-sdk"), .answer 0 (str% "polkadot-sdk") exSdk, .second (str% "release")] p ∧ p.compare = some q ∧
    Served exCloneWorld exClickSite ⟨initial exCloneWorld (fun _ => exCloneState) 0, []⟩ RefName ⟨str% "GET", utf8 (str% "/compare"), q⟩ exClickArgs (str% "me")
      (exCommitFns 9000000) (exCommitFns 7000000) := by
  have hv : ∃ p, visit [str% "polkadot-sdk"] (fun _ => none) [.repo (str% "polkadot-sdk"), .answer 0 (str% "polkadot-sdk") exSdk, .second (str% "release")] =
      some p ∧ p.repo = some (str% "polkadot-sdk") ∧ p.first = some (str% "master") ∧ p.second = some (str% "release") := ⟨_, rfl, rfl, rfl, rfl⟩
  obtain ⟨p, hv, e1, e2, e3⟩ := hv
  have hv := visit_sound hv
  have h0 : exClickSite.Reachable exCloneWorld ⟨initial exCloneWorld (fun _ => exCloneState) 0, []⟩ := .init _ _
  obtain ⟨-, -, -, q, hq, k⟩ := C99_button exClone_real exClone_nobody exClone_undisputed exClone_noFiles (disk := fun s => exCloneDisk s.1.head) exClick_started rfl rfl
    exClone_peaceful h0 (base := exCloneBase) rfl exClone_workspace (.inl rfl) exClone_wellKept hv e1 e2 e3 rfl (urlSafe_of (by decide)) (urlSafe_of (by decide)) (by decide)
    (by decide) (by decide) (by decide) (refName_of (by decide)) (refName_of (by decide)) (a := exClickArgs) rfl (c1 := exNewCommit) (c2 := exOldCommit)
    (.inl (.inl ⟨rfl, rfl⟩)) (.inl (.inr ⟨rfl, rfl⟩)) (exCommit_functions exGen_9 (by decide)) (exCommit_functions exGen_7 (by decide)) (org := str% "me") (by decide) rfl
    (by intro id ho st fi v t h; cases h) (by intro i pc h; cases h) exCommit_sized exCommit_inert ⟨by unfold BareNames; decide, by unfold Inert; decide, by unfold Inert; decide,
      by unfold Inert; decide⟩
  exact ⟨p, q, hv, hq, k⟩

/-! ### Where it goes wrong -/

/-- `--git-pull` without `--git-force`: `master` is the old commit, not the newest. -/
example : exOrigin.heads (str% "master") = some exNewCommit ∧
    ∃ G s', CheckedOut exCloneWorld (str% "master") true false exCloneState G s' ∧ (exCloneView s').head = exOldCommit := by
  have hx : RefName (str% "master") := refName_of (by decide)
  have hf := exClone_real.fetch exCloneState _ hx
  have hs := hf.works rfl (.inr (.inr nofun)) (fun _ _ => exRefMap_room (by decide))
  have hc := (exClone_real.checkout (exCloneWorld.git exCloneState [str% "fetch", str% "origin", str% "master"]).2 _ hx).switch exOldCommit (by rw [hf.same.heads]; rfl)
  have h : CheckedOut exCloneWorld (str% "master") true false exCloneState _ _ := ⟨_, _, _, .inl ⟨rfl, _, rfl, hs, rfl⟩, rfl, .inl ⟨rfl, _, rfl, hc.1, rfl⟩⟩
  exact ⟨rfl, _, _, h, (C99_false_newest exClone_real hx (c := exOldCommit) rfl h).1⟩

/-- A directory taken for a revision. -/
example : ∃ G s', CheckedOut exCloneWorld (str% "substrate") false false exCloneState G s' ∧ (exCloneView s').head = exNewCommit :=
  C99_false_path exClone_real (s := exCloneState) (refName_of (by decide)) rfl rfl ⟨_, _, exCommit_isDir, by simp, rfl⟩

/-- The branch `wip` has the newer commit, `master` was last seen with the older one.  Compared with each other, both are the older one. -/
example : exClone.here.heads (str% "wip") = some exNewCommit ∧ ∃ G1 s1 G2 s2, CheckedOut exCloneWorld (str% "master") false true exCloneState G1 s1 ∧
    CheckedOut exCloneWorld (str% "wip") false true s1 G2 s2 ∧ (exCloneView s1).head = exOldCommit ∧ (exCloneView s2).head = exOldCommit :=
  ⟨rfl, C99_false_moved exClone_real (s := exCloneState) (refName_of (by decide)) (refName_of (by decide)) (.last (exClone_clear rfl rfl (by decide)) rfl rfl) rfl rfl
    (exClone_shortName (by decide)) (exClone_clear rfl rfl (by decide)) ⟨⟨by decide, by decide⟩, rfl⟩ ⟨noPath (.inl rfl) (by decide), noPath (.inl rfl) (by decide)⟩
    (by decide)⟩

/-- The tag `v2` is at the origin, and cannot be compared. -/
example : exOrigin.tags (str% "v2") = some exNewCommit ∧ ∃ G s', CheckoutFails exCloneWorld (str% "v2") true true exCloneState G s' :=
  ⟨rfl, C99_false_tag_new exClone_real (s := exCloneState) (refName_of (by decide)) rfl nofun rfl rfl (exClone_shortName (by decide)) (fun s => ⟨rfl, s.2.other _⟩)
    (exClone_clear rfl rfl (by decide)) ⟨⟨by decide, by decide⟩, rfl⟩⟩

/-- The tag `v1` is the newer commit at the origin, and the older one in the comparison, also after everything has been fetched. -/
example : exOrigin.tags (str% "v1") = some exNewCommit ∧ (∃ G s', CheckedOut exCloneWorld (str% "v1") true true exCloneState G s' ∧ (exCloneView s').head = exOldCommit) ∧
    ∃ G s', CheckedOut exCloneWorld (str% "v1") true true (exCloneWorld.git exCloneState [str% "fetch", str% "--all", str% "--prune", str% "--tags"]).2 G s' ∧
      (exCloneView s').head = exOldCommit :=
  ⟨rfl, C99_false_tag exClone_real exClone_nobody (s := exCloneState) (refName_of (by decide)) rfl rfl rfl rfl (exClone_shortName (by decide)) (noPath (.inr rfl) (by decide))
    (exClone_clear rfl rfl (by decide)) ⟨⟨by decide, by decide⟩, rfl⟩ rfl⟩

/-- After somebody has asked for `release:origin/master`, `master` is the commit of `release`, for everybody. -/
example : exOrigin.heads (str% "master") = some exNewCommit ∧ ∃ G s', CheckoutFails exCloneWorld (str% "release:origin/master") true true exCloneState G s' ∧
    ∀ pull, ∃ G s'', CheckedOut exCloneWorld (str% "master") pull true s' G s'' ∧ (exCloneView s'').head = exOldCommit := by
  obtain ⟨G, s', h1, h2⟩ := C99_false_poison exClone_real exClone_nobody (s := exCloneState) (a := str% "release") (x := str% "master") (refName_of (by decide))
    (refName_of (by decide)) (ca := exOldCommit) (cx := exNewCommit) rfl ⟨rfl, rfl, rfl⟩ ⟨rfl, rfl, rfl⟩ (exClone_clear rfl rfl (by decide)) rfl
    ⟨exRefMap_room (by decide), exRefMap_room (by decide), exRefMap_room (by decide)⟩ (exRefMap_room (by decide))
  exact ⟨rfl, G, s', h1, fun pull => (h2 pull).2⟩

/-- The branch `release` is not in the clone; after the first `--git-pull`, it is, as it is at the origin. -/
example : ∃ G s', CheckedOut exCloneWorld (str% "release") true false exCloneState G s' ∧ (exCloneView s').head = exOldCommit ∧
    (exCloneView s').branch = some (str% "release") ∧ (exCloneView s').here.heads (str% "release") = some exOldCommit :=
  C99_first exClone_real (s := exCloneState) (refName_of (by decide)) rfl ⟨rfl, rfl, rfl⟩ (exRefMap_room (by decide)) (exRefMap_room (by decide)) rfl rfl
    (exClone_shortName (by decide)) (fun s => ⟨rfl, s.2.other _⟩) (noPath (.inr rfl) (by decide))

/-- A clone in which no tag has another commit than at the origin. -/
def exFreshClone : Clone := { exClone with here := ⟨exClone.here.heads, exRefMap [(str% "v0", exOldCommit)], fun _ => none⟩ }

theorem exFreshClone_ok : ExClone exFreshClone where
  origin := rfl
  online := rfl
  other _ := rfl
  commits _ := rfl
  colons x hx := by
    obtain ⟨a1, -, a3⟩ := exClone_ok.colons x hx
    refine ⟨a1, ?_, a3⟩
    by_contra h
    have := exRefMap_name h
    simp only [List.map_cons, List.map_nil, List.mem_cons, List.not_mem_nil, or_false] at this
    subst this
    revert hx
    decide
  branch b h := by cases h; decide
  head := .inr rfl
  known x c h := by
    rcases h with h | h | h
    · exact exClone_ok.known x c (.inl h)
    · have := exRefMap_mem h
      simp only [List.mem_cons, Prod.mk.injEq, List.not_mem_nil, or_false] at this
      rcases this with ⟨-, rfl⟩
      exact .inl rfl
    · exact exClone_ok.known x c (.inr (.inr h))

/-- There, `v2` can be compared once everything has been fetched. -/
example : exFreshClone.here.tags (str% "v2") = none ∧
    Obtains (exCloneView (exCloneWorld.git ⟨exFreshClone, exFreshClone_ok⟩ [str% "fetch", str% "--all", str% "--prune", str% "--tags"]).2) true (str% "v2") exNewCommit := by
  refine ⟨rfl, ?_⟩
  have hs := (exClone_real.fetchAll ⟨exFreshClone, exFreshClone_ok⟩).works rfl (by
    intro t c c' h h'
    have h := exRefMap_mem h
    simp only [List.mem_cons, Prod.mk.injEq, List.not_mem_nil, or_false] at h
    obtain ⟨rfl, rfl⟩ := h
    cases h'
    rfl)
  exact C99_all_tags exClone_real exClone_nobody (s := ⟨exFreshClone, exFreshClone_ok⟩) rfl hs rfl rfl rfl (exClone_shortName (by decide)) (noPath (.inr rfl) (by decide))
    ⟨by decide, by decide⟩ ⟨rfl, rfl, noPath (.inr rfl) (by decide)⟩ rfl

/-! ### The weight file, once -/

theorem exClone_repo : ∃ spot, RepoAt (exCloneDisk exNewCommit) exCloneBase spot ∧ spot.node = exCommitTree :=
  ⟨_, .relative (by simp) (.name ⟨by decide, by decide, by decide⟩ rfl (.name ⟨by decide, by decide, by decide⟩ rfl .stop)), rfl⟩

/-- `**` finds the file once. -/
example : ∃ l, globOn (exCloneDisk exNewCommit) (str% "r/polkadot-sdk/**/[a-c]") = some l ∧ l.Nodup := by
  obtain ⟨spot, h1, h2⟩ := exClone_repo
  obtain ⟨l, h3, h4, -⟩ := C98_once h1 (by rw [h2]; exact exCommit_tidy) exOrdinary (by decide)
  exact ⟨l, h3, h4⟩

/-- One file is not too many, unless none is allowed. -/
example {pattern : Str} (hp : pathPresets.lookup (str% "polkadot-sdk") = some pattern) (maxFiles : Nat) :
    Listed exCloneWorld exCloneState exCloneBase pattern maxFiles [exCloneBase ++ exCommitPath.map .normal] ↔ 1 ≤ maxFiles := by
  obtain ⟨spot, h1, h2⟩ := exClone_repo
  refine C98_sdk_limit exClone_workspace.onDisk hp maxFiles (s := exCloneState) h1 (by rw [h2]; exact exCommit_tidy) (List.pairwise_singleton _ _) (fun f => ?_)
  rw [List.mem_singleton, h2]
  constructor
  · rintro rfl
    exact ⟨exCommitPath, .file, exCommit_file, .frame [str% "p"], by decide, rfl⟩
  · rintro ⟨ns, n, h1, h2, h3, rfl⟩
    rw [exCommit_only h1 h2]
    rfl

end Swc
