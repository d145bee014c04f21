/-
C88: the texts of errors and warnings (`core/src/lib.rs:584-657, 717-764`).
-/
import Verif.Spec.Messages
import Verif.Props.CompareFiles

namespace Swc

open Spec Std Term

theorem instance_reason {a c : Option SimpleExtrinsic} {x p e : Str} {s : Strategy} {msg : Str}
    (h : instanceComponent x (a.map fun e => e.compRanges.getD []) (c.map fun e => e.compRanges.getD []) s p e = .err msg) :
    s.exact = true ∧ (((∀ r, ¬ Annotated a c x r) ∧ msg = noRangeText p e x) ∨
      ((∃ r r', Annotated a c x r ∧ Annotated a c x r' ∧ r ≠ r') ∧ msg = twoRangesText p e x)) := by
  simp only [annotated_iff]
  unfold instanceComponent at h
  rw [show rangeGet (a.map fun e => e.compRanges.getD []) x = rangeOf a x from rfl,
    show rangeGet (c.map fun e => e.compRanges.getD []) x = rangeOf c x from rfl] at h
  obtain ⟨ex, mm⟩ := s
  cases ha : rangeOf a x with
  | none =>
    cases hc : rangeOf c x with
    | none =>
      rw [ha, hc] at h
      cases ex <;> cases mm <;> simp at h
      all_goals exact ⟨rfl, .inl ⟨by simp, h.symm⟩⟩
    | some r => rw [ha, hc] at h; simp at h
  | some r =>
    cases hc : rangeOf c x with
    | none => rw [ha, hc] at h; simp at h
    | some r' =>
      rw [ha, hc] at h
      by_cases hr : r = r'
      · simp [hr] at h
      · simp only [if_neg hr] at h
        cases ex <;> cases mm <;> simp at h
        all_goals exact ⟨rfl, .inr ⟨⟨r, r', .inl rfl, .inr rfl, hr⟩, h.symm⟩⟩

theorem extend_reason {ho : HashOrder} {a c : Option SimpleExtrinsic} {m : CompareMethod} {scope : SimpleScope} {msg : Str} {x : SimpleExtrinsic}
    (hx : a.or c = some x) (h : extendScopedComponents ho a c m scope = .err msg) :
    Reason m x.pallet x.name (FreeIn scope a c) (Annotated a c) msg := by
  have hdef : extendScopedComponents ho a c m scope =
      if (freesOf ho a c scope).length > 16 then .err (tooManyMsg x.pallet x.name (freesOf ho a c scope).length)
      else (do
        let insts ← (freesOf ho a c scope).mapM (instOf a c m x.pallet x.name)
        .ok (setOfList SimpleScope.cmp (cornerScopes scope insts))) := by
    simp only [extendScopedComponents, hx, Res.unwrap, Res.bind_ok]
    rfl
  rw [hdef] at h
  by_cases hl : (freesOf ho a c scope).length > 16
  · rw [if_pos hl] at h
    injection h with h
    exact .inl ⟨_, hl, ⟨_, nodup_freesOf (ho := ho), rfl, fun y => mem_freesOf⟩, h.symm⟩
  · rw [if_neg hl] at h
    refine .inr ⟨by rwa [moreThan_freesOf (ho := ho)], ?_⟩
    cases hm : (freesOf ho a c scope).mapM (instOf a c m x.pallet x.name) with
    | ok insts => rw [hm] at h; cases h
    | panic => rw [hm] at h; cases h
    | diverge => rw [hm] at h; cases h
    | err msg' =>
      rw [hm] at h
      injection h with h
      subst h
      obtain ⟨y, hy, hi⟩ := mapM_err hm
      have key : ∃ s : Strategy, (s = m.minStrategy ∨ s = m.maxStrategy) ∧
          instanceComponent y (a.map fun e => e.compRanges.getD []) (c.map fun e => e.compRanges.getD []) s x.pallet x.name = .err msg' := by
        unfold instOf at hi
        generalize h1 : instanceComponent y _ _ m.minStrategy x.pallet x.name = r1 at hi
        generalize h2 : instanceComponent y _ _ m.maxStrategy x.pallet x.name = r2 at hi
        cases r1 with
        | err m1 =>
          injection hi with hi
          exact ⟨_, .inl rfl, by rw [h1, hi]⟩
        | panic => cases hi
        | diverge => cases hi
        | ok n1 =>
          cases r2 with
          | err m2 =>
            injection hi with hi
            exact ⟨_, .inr rfl, by rw [h2, hi]⟩
          | panic => cases hi
          | diverge => cases hi
          | ok n2 => cases hi
      obtain ⟨s, hs, hi⟩ := key
      obtain ⟨he, hr⟩ := instance_reason hi
      refine ⟨?_, y, mem_freesOf.1 hy, hr⟩
      rcases hs with rfl | rfl <;> cases m <;> simp [CompareMethod.minStrategy, CompareMethod.maxStrategy, Exact] at he ⊢

/-- C88: the text of a refusal says which call is refused, and the true reason. -/
theorem C88_refusal (b : Build) (ho : HashOrder) (old new : Option SimpleExtrinsic) (params : CompareParams) (msg : Str)
    (hr : Refused params.method old new) (h : compareExtrinsics b ho old new params = .err msg) :
    ∃ x, old.or new = some x ∧ Reason params.method x.pallet x.name (Component old new) (Annotated old new) msg := by
  have hne : old ≠ none ∨ new ≠ none := by
    cases old <;> cases new <;> simp
    rw [show compareExtrinsics b ho none none params = .panic from rfl] at h
    cases h
  obtain ⟨x, hx⟩ : ∃ x, old.or new = some x := by
    cases old with
    | some y => exact ⟨_, rfl⟩
    | none =>
      cases new with
      | some y => exact ⟨_, rfl⟩
      | none => simp at hne
  refine ⟨x, hx, ?_⟩
  have hd : old.map (dropStorage params.unit) ≠ none ∨ new.map (dropStorage params.unit) ≠ none := by simpa using hne
  obtain ⟨h1, _⟩ := extend_spec ho (old.map (dropStorage params.unit)) (new.map (dropStorage params.unit)) hd params.method
    (baseScope params.unit) (sorted_baseScope _)
  rw [freeIn_base, unambiguous_drop] at h1
  obtain ⟨msg', he⟩ := h1 hr
  have hx' : (old.map (dropStorage params.unit)).or (new.map (dropStorage params.unit)) = some (dropStorage params.unit x) := by
    rw [← Option.map_or, hx]
    rfl
  have hm : msg' = msg := by
    unfold compareExtrinsics at h
    simp only [he, Res.bind_err] at h
    injection h
  subst hm
  have := extend_reason hx' he
  rw [freeIn_base, annotated_drop] at this
  rwa [show (dropStorage params.unit x).pallet = x.pallet by cases params.unit <;> rfl,
    show (dropStorage params.unit x).name = x.name by cases params.unit <;> rfl] at this

theorem sanity_warns {t : SimpleTerm} {m p e : Str} (h : sanityCheckTerm t = .err m) :
    Warns p e (fun k => Factor (str% "READ") k t) (fun k => Factor (str% "WRITE") k t) (m ++ str% ": " ++ p ++ str% "::" ++ e) := by
  obtain ⟨n, hn, ⟨rfl, h1, h2⟩ | ⟨rfl, h1⟩⟩ := C15_message t m h
  · exact ⟨n, hn, .inr ⟨h1, fun hw => by have := h2 n hw; omega, by simp [readsText]⟩⟩
  · exact ⟨n, hn, .inl ⟨h1, by simp [writesText]⟩⟩

/-- C88: the text of an error in a report names the call and the true reason for which its two versions are not compared, and the text of a warning
names the call and the largest number of storage accesses in its newest version. -/
theorem C88_report (b : Build) (ho : HashOrder) (rx : RegexEngine) (olds news : List ChromaticExtrinsic) (params : CompareParams)
    (filter : FilterParams) (diff : List ExtrinsicDiff) (h : compareFiles b ho rx olds news params filter = .ok diff)
    (d : ExtrinsicDiff) (hd : d ∈ diff) (o n : Option ChromaticExtrinsic) (h1 : FirstOf olds d.file d.name o) (h2 : FirstOf news d.file d.name n) :
    (∀ msg, d.change = .failed msg → Refused params.method (o.map (inDim params.unit)) (n.map (inDim params.unit)) →
      Reason params.method d.file d.name (Component (o.map (inDim params.unit)) (n.map (inDim params.unit)))
        (Annotated (o.map (inDim params.unit)) (n.map (inDim params.unit))) msg) ∧
    (∀ r msg, d.change = .warning r msg → ∃ x, (n = some x ∨ (n = none ∧ o = some x)) ∧
      Warns d.file d.name (fun k => Factor (str% "READ") k (inDim params.unit x).term) (fun k => Factor (str% "WRITE") k (inDim params.unit x).term) msg) := by
  obtain ⟨names, hs, hm, hf⟩ := compareFiles_ok h
  obtain ⟨p, hp, he⟩ := forall₂_mem_right hf hd
  obtain ⟨rfl, hc⟩ := entry_name he
  obtain ⟨e1, e2⟩ := entry_eq (params := params) h1 h2
  have named : ∀ {l : List ChromaticExtrinsic} {y : Option ChromaticExtrinsic} {x : ChromaticExtrinsic}, FirstOf l d.file d.name y → y = some x →
      (inDim params.unit x).pallet = d.file ∧ (inDim params.unit x).name = d.name := by
    rintro l y x hy rfl
    exact hy.1
  have either : ∀ {l1 l2 : List ChromaticExtrinsic} {y z : Option ChromaticExtrinsic} {x : SimpleExtrinsic},
      FirstOf l1 d.file d.name y → FirstOf l2 d.file d.name z → (y.map (inDim params.unit)).or (z.map (inDim params.unit)) = some x →
      ∃ x', x = inDim params.unit x' ∧ (y = some x' ∨ (y = none ∧ z = some x')) ∧ x.pallet = d.file ∧ x.name = d.name := by
    intro l1 l2 y z x hy hz hx
    cases y with
    | some y =>
      cases hx
      exact ⟨y, rfl, .inl rfl, named hy rfl⟩
    | none =>
      cases z with
      | some z =>
        cases hx
        exact ⟨z, rfl, .inr ⟨rfl, rfl⟩, named hz rfl⟩
      | none => cases hx
  unfold diffOne at hc
  simp only [e1, e2] at hc
  constructor
  · intro msg hmsg hr
    obtain ⟨m, hm⟩ := (compareExtrinsics_spec b ho (o.map (inDim params.unit)) (n.map (inDim params.unit)) params
      (by
        cases o <;> cases n <;> simp
        rw [show compareExtrinsics b ho (Option.map (inDim params.unit) none) (Option.map (inDim params.unit) none) params = .panic from rfl] at hc
        cases hc)).1 hr
    rw [hm] at hc
    injection hc with hc
    rw [hmsg] at hc
    injection hc with hc
    subst hc
    obtain ⟨x, hx, hre⟩ := C88_refusal b ho _ _ params m hr hm
    obtain ⟨x', rfl, _, hp, he⟩ := either h1 h2 hx
    rwa [hp, he] at hre
  · intro r msg hmsg
    rw [hmsg] at hc
    generalize compareExtrinsics b ho _ _ params = q at hc
    cases q with
    | err m => injection hc with hc; cases hc
    | panic => cases hc
    | diverge => cases hc
    | ok change =>
      cases hx : (n.map (inDim params.unit)).or (o.map (inDim params.unit)) with
      | none => rw [hx] at hc; cases hc
      | some x =>
        rw [hx] at hc
        obtain ⟨x', rfl, hx', hp, he⟩ := either h2 h1 hx
        dsimp only at hc
        refine ⟨x', hx', ?_⟩
        cases hsn : sanityCheckTerm (inDim params.unit x').term with
        | ok u => rw [hsn] at hc; injection hc with hc; cases hc
        | panic => rw [hsn] at hc; cases hc
        | diverge => rw [hsn] at hc; cases hc
        | err m =>
          rw [hsn] at hc
          injection hc with hc
          injection hc with hc1 hc2
          rw [← hc2, hp, he]
          exact sanity_warns hsn

/-- The texts in a report. -/
def exTexts (r : Res (List ExtrinsicDiff)) : Res (List (Str × Option Str)) := r.map (List.map fun d => (d.name, match d.change with
  | .failed m => some m | .warning _ m => some m | .changed _ => none))

/-- A report with a warning. -/
example : exTexts (compareFiles .release idOrder exRegex exOlds exNews (exParams .base .time) exFilter) =
    .ok [(str% "g", none), (str% "f", none), (str% "h", some (str% "Call has 1001 READs: b::h"))] := by decide +kernel

/-- Versions of a call with the components `n` and `m`. -/
def exTwo (r : List (Str × ComponentRange)) : ChromaticExtrinsic :=
  { exExtr (str% "b") (str% "f") (.add (.mul (.value ⟨10, 1⟩) (.var (str% "n"))) (.mul (.value ⟨10, 1⟩) (.var (str% "m")))) with compRanges := some r }

/-- Reports with errors: a component without a range, and one with two. -/
example :
    exTexts (compareFiles .release idOrder exRegex [exTwo [(str% "n", ⟨1, 5⟩)]] [exTwo [(str% "n", ⟨1, 5⟩)]] (exParams .exactWorst .time) exFilter) =
      .ok [(str% "f", some (str% "No range for component m of call b::f - use Guess instead!"))] ∧
    exTexts (compareFiles .release idOrder exRegex [exTwo [(str% "m", ⟨0, 1⟩), (str% "n", ⟨1, 5⟩)]] [exTwo [(str% "n", ⟨1, 6⟩)]] (exParams .exactWorst .time) exFilter) =
      .ok [(str% "f", some (str% "Component n of call b::f has different ranges in the old and new version - use Guess instead!"))] := by decide +kernel

/-- The hypothesis of `C88_refusal` is met. -/
example : Refused .exactWorst (some (inDim .time (exTwo [(str% "n", ⟨1, 5⟩)]))) none := by
  refine .inr ⟨.inl rfl, str% "m", ⟨⟨_, .inl rfl, .addR (.mulR .here)⟩, by decide, by decide⟩, ?_⟩
  rintro ⟨r, ⟨e, m, h | h, hm, hb⟩, _⟩
  · cases h
    cases hm
    exact absurd hb (by simp [binding])
  · cases h

end Swc
