/-
C79: every list of functions that the benchmarking tool can have written has a text, so that the theorems about texts of weight files are about all of them.
-/
import Verif.Props.WeightTextReport

namespace Swc

open Spec

/-- The shortest spelling of a token. -/
def spell : RTok → Str
  | .ident x => x
  | .int d => d
  | .lit t => t
  | .lifetime x => '\'' :: x
  | .doc false t => '/' :: '/' :: '/' :: t
  | .doc true t => '/' :: '/' :: '!' :: t
  | .sym y => symText y
  | .opn d => openText d
  | .cls d => closeText d

/-- Every token on a line of its own. -/
def spellAll (ts : List RTok) : Str := (ts.flatMap fun t => '\n' :: spell t) ++ ['\n']

theorem spellAll_break (ts : List RTok) : ∃ r, spellAll ts = '\n' :: r := by
  cases ts with
  | nil => exact ⟨_, rfl⟩
  | cons t ts => exact ⟨_, rfl⟩

theorem apart_break (t : RTok) (r : Str) : Apart t ('\n' :: r) := by
  have hw : ¬ WordChar '\n' := by unfold WordChar; decide
  unfold Apart
  split
  · rintro c r' ⟨⟩; exact ⟨hw, by decide, by decide, by decide⟩
  · rintro c r' ⟨⟩; exact ⟨hw, fun h => absurd h (by decide)⟩
  · trivial
  · rintro c r' ⟨⟩; exact hw
  · rintro c r' ⟨⟩; exact ⟨hw, by decide⟩
  · exact ⟨_, rfl⟩
  · rintro r' ⟨⟩
  · rintro r' ⟨⟩
  · exact ⟨by rintro _ r' ⟨⟩, fun _ => ⟨by rintro r' ⟨⟩, by rintro r' ⟨⟩⟩⟩
  · trivial

theorem layout_spell {ts : List RTok} (h : ∀ t ∈ ts, SpellsTok t (spell t)) : Layout ts (spellAll ts) := by
  induction ts with
  | nil => exact .nil (.white (.inr (.inr (.inl rfl))) .nil)
  | cons t ts ih =>
    obtain ⟨r, hr⟩ := spellAll_break ts
    have := Layout.cons (gap := ['\n']) (s := spell t) (.white (.inr (.inr (.inl rfl))) .nil) (h t List.mem_cons_self) (rest := spellAll ts)
      (by rw [hr]; exact apart_break t r) (ih fun t ht => h t (List.mem_cons_of_mem _ ht))
    simpa [spellAll] using this

/-- All tokens of the trees can be spelled like that, and brackets occur as groups only. -/
def Spelled (ts : List RTree) : Prop := (∀ t ∈ toksOf ts, SpellsTok t (spell t)) ∧ proper ts = true

theorem toksOf_append' (a c : List RTree) : toksOf (a ++ c) = toksOf a ++ toksOf c := by
  induction a with
  | nil => rfl
  | cons t a ih => rw [List.cons_append, toksOf, toksOf, ih, List.append_assoc]

theorem proper_append' (a c : List RTree) : proper (a ++ c) = (proper a && proper c) := by
  induction a with
  | nil => simp [proper]
  | cons t a ih => rw [List.cons_append, proper, proper, ih, Bool.and_assoc]

theorem spelled_nil : Spelled [] := ⟨by simp [toksOf], rfl⟩

theorem spelled_append {a c : List RTree} (ha : Spelled a) (hc : Spelled c) : Spelled (a ++ c) := by
  refine ⟨?_, by rw [proper_append', ha.2, hc.2]; rfl⟩
  intro t ht
  rw [toksOf_append', List.mem_append] at ht
  exact ht.elim (ha.1 t) (hc.1 t)

theorem spelled_cons {t : RTree} {c : List RTree} (ha : Spelled [t]) (hc : Spelled c) : Spelled (t :: c) := spelled_append ha hc

theorem spelled_word {x : Str} (h : Word x) : Spelled [id' x] :=
  ⟨by simp only [toksOf, toksOfTree, List.append_nil, List.mem_singleton]; rintro _ rfl; exact .ident h, rfl⟩

theorem spelled_sym {y : Sym} (h : ∀ c, y ≠ .other c) : Spelled [sy y] :=
  ⟨by simp only [toksOf, toksOfTree, List.append_nil, List.mem_singleton]; rintro _ rfl; exact .sym fun c hc => absurd hc (h c), rfl⟩

theorem spelled_group {d : Delim} {ts : List RTree} (h : Spelled ts) : Spelled [.group d ts] := by
  refine ⟨?_, by simp [proper, properTree, h.2]⟩
  intro t ht
  simp only [toksOf, toksOfTree, List.append_nil, List.mem_cons, List.mem_append, List.not_mem_nil, or_false] at ht
  rcases ht with rfl | ht | rfl
  · exact .opn
  · exact h.1 t ht
  · exact .cls

theorem digits_first (n : Nat) : Nat.toDigits 10 n = str% "0" ∨ ∃ c r, Nat.toDigits 10 n = c :: r ∧ c ≠ '0' := by
  have key : ∀ n, 0 < n → ∃ c r, Nat.toDigits 10 n = c :: r ∧ c ≠ '0' := by
    intro n
    induction n using Nat.strongRecOn with
    | _ n ih =>
      intro hn
      by_cases h : n < 10
      · rw [Nat.toDigits_of_lt_base h]
        refine ⟨_, [], rfl, ?_⟩
        have : ∀ m : Nat, m < 10 → 0 < m → m.digitChar ≠ '0' := by decide
        exact this n h hn
      · rw [Nat.toDigits_of_base_le (by decide) (by omega)]
        obtain ⟨c, r, hc, h0⟩ := ih (n / 10) (by omega) (by omega)
        rw [hc]
        exact ⟨c, _, rfl, h0⟩
  cases n with
  | zero => exact .inl (Nat.toDigits_zero 10)
  | succ n => exact .inr (key _ (Nat.succ_pos n))

theorem spelled_nat (n : Nat) : Spelled [nat' n] := by
  refine ⟨?_, rfl⟩
  simp only [nat', toksOf, toksOfTree, List.append_nil, List.mem_singleton]
  rintro _ rfl
  have hdig : ∀ c ∈ Nat.toDigits 10 n, c.isDigit = true := fun c hc => Nat.isDigit_of_mem_toDigits (by decide) (by decide) hc
  refine .int ⟨Nat.toDigits 10 n, [], 0, (List.append_nil _).symm, by decide, ?_, fun c hc => .inl (hdig c hc), ?_, digits_first n⟩
  · cases h : Nat.toDigits 10 n with
    | nil => exact absurd h Nat.toDigits_ne_nil
    | cons c r => exact ⟨c, r, rfl, hdig c (by rw [h]; exact List.mem_cons_self)⟩
  · rw [List.filter_eq_self.2]
    · rfl
    · intro c hc
      have h1 := hdig c hc
      simp only [ne_eq, decide_not, Bool.not_eq_true', decide_eq_false_iff_not]
      rintro rfl
      exact absurd h1 (by decide)

theorem word_of_name {x : Str} (h : Name x) : Word x := h.1

theorem spelled_lit {x : Str} (h : Gen.nameB x = true) : Spelled [id' x] := spelled_word (Gen.name_of h).1

theorem spelled_as : Spelled [id' (str% "as")] := spelled_word ⟨'a', _, rfl, by decide, by unfold WordChar; decide⟩
theorem spelled_fn : Spelled [id' (str% "fn")] := spelled_word ⟨'f', _, rfl, by decide, by unfold WordChar; decide⟩
theorem spelled_impl : Spelled [id' (str% "impl")] := spelled_word ⟨'i', _, rfl, by decide, by unfold WordChar; decide⟩
theorem spelled_for : Spelled [id' (str% "for")] := spelled_word ⟨'f', _, rfl, by decide, by unfold WordChar; decide⟩

theorem spelled_num (style : Style) (n : Nat) : Spelled (numTrees style n) := by
  cases style
  · exact spelled_nat n
  · exact spelled_cons (spelled_nat n) (spelled_cons spelled_as (spelled_lit (by decide)))
  · exact spelled_cons (spelled_nat n) (spelled_cons spelled_as (spelled_lit (by decide)))

theorem spelled_weight (style : Style) (t p : Nat) : Spelled (weightTrees style t p) := by
  have hs : ∀ {y : Sym}, (∀ c, y ≠ .other c) → Spelled [sy y] := spelled_sym
  cases style
  · exact spelled_cons (spelled_lit (by decide)) (spelled_cons (hs (by simp)) (spelled_cons (spelled_lit (by decide))
      (spelled_group (spelled_cons (spelled_nat t) (spelled_cons (hs (by simp)) (spelled_nat p))))))
  · exact spelled_cons (spelled_lit (by decide)) (spelled_cons (hs (by simp)) (spelled_cons (spelled_lit (by decide)) (spelled_group (spelled_num _ t))))
  · exact spelled_group (spelled_num _ t)

theorem spelled_comp (style : Style) {c : Str} (h : Word c) : Spelled (compTrees style c) := by
  cases style
  · exact spelled_cons (spelled_word h) (spelled_cons (spelled_sym (by simp)) (spelled_cons (spelled_lit (by decide)) (spelled_group spelled_nil)))
  · exact spelled_cons (spelled_word h) (spelled_cons spelled_as (spelled_lit (by decide)))
  · exact spelled_cons (spelled_word h) (spelled_cons spelled_as (spelled_lit (by decide)))

theorem spelled_call {m : Str} (hm : Gen.nameB m = true) {arg : List RTree} (h : Spelled arg) : Spelled (callTrees m arg) :=
  spelled_cons (spelled_sym (by simp)) (spelled_cons (spelled_lit hm) (spelled_group h))

/-- `T::DbWeight::get`. -/
def dbName : List Str := [str% "T", str% "DbWeight", str% "get"]

theorem spelled_db : Spelled (joinPath dbName) :=
  spelled_cons (spelled_lit (by decide)) (spelled_cons (spelled_sym (by simp)) (spelled_cons (spelled_lit (by decide)) (spelled_cons (spelled_sym (by simp))
    (spelled_lit (by decide)))))

theorem spelled_summand (style : Style) (x : Summand) (h : ∀ c ∈ x.comps, Word c) : Spelled (summandTrees style dbName x) := by
  have hg : Spelled [RTree.group .paren []] := spelled_group spelled_nil
  cases x with
  | slope t p c => exact spelled_append (spelled_weight _ _ _) (spelled_call (by decide) (spelled_comp _ (h c (by simp [Summand.comps]))))
  | reads n => exact spelled_append spelled_db (spelled_cons hg (spelled_call (by decide) (spelled_num _ n)))
  | writes n => exact spelled_append spelled_db (spelled_cons hg (spelled_call (by decide) (spelled_num _ n)))
  | readsPer n c =>
    exact spelled_append spelled_db (spelled_cons hg (spelled_call (by decide) (spelled_cons (spelled_group (spelled_num _ n))
      (spelled_call (by decide) (spelled_comp _ (h c (by simp [Summand.comps])))))))
  | writesPer n c =>
    exact spelled_append spelled_db (spelled_cons hg (spelled_call (by decide) (spelled_cons (spelled_group (spelled_num _ n))
      (spelled_call (by decide) (spelled_comp _ (h c (by simp [Summand.comps])))))))

theorem spelled_flatten {l : List (List RTree)} (h : ∀ ts ∈ l, Spelled ts) : Spelled l.flatten := by
  induction l with
  | nil => exact spelled_nil
  | cons ts l ih => exact spelled_append (h ts List.mem_cons_self) (ih fun ts ht => h ts (List.mem_cons_of_mem _ ht))

theorem spelled_doc {l : DocLine} (h : l.Ok) (hs : ∀ t, l = .text t → ∀ r, t ≠ '/' :: r) : Spelled [RTree.tok (.doc false l.line)] := by
  refine ⟨?_, rfl⟩
  simp only [toksOf, toksOfTree, List.append_nil, List.mem_singleton]
  rintro _ rfl
  have key : ∀ c ∈ l.line, c ≠ '\n' ∧ c ≠ '\r' := by
    cases l with
    | text s =>
      intro c hc
      have := h.2 c hc
      constructor <;> rintro rfl <;> simp at this
    | range x lo hi =>
      have hw : ∀ c, WordChar c → c ≠ '\n' ∧ c ≠ '\r' := by
        intro c hc
        constructor <;> rintro rfl <;> exact absurd hc (by unfold WordChar; decide)
      have hx : ∀ c ∈ x, WordChar c := by
        obtain ⟨c, r, rfl, hc, hr⟩ := h.1
        intro d hd
        rcases List.mem_cons.1 hd with rfl | hd
        · exact hc.elim .inl fun h => .inr (.inr h)
        · exact hr d hd
      intro c hc
      simp only [DocLine.line, List.mem_append] at hc
      rcases hc with (((((hc | hc) | hc) | hc) | hc) | hc) | hc
      all_goals first
        | exact hw c (hx c hc)
        | exact hw c (Gen.digits_word _ c hc)
        | (revert c; decide)
  refine .doc (fun hc => (key _ hc).1 rfl) (fun hc => (key _ hc).2 rfl) ?_
  cases l with
  | text s => exact hs s rfl
  | range x lo hi => intro r hr; simp [DocLine.line] at hr

/-- A function without visibility, type parameters and parameters. -/
def plainFn (style : Style) (f : GenFn) : List RTree :=
  f.docs.map (fun l => .tok (.doc false l.line)) ++ [] ++ id' (str% "fn") :: id' f.name ::
    ([] ++ [.group .paren [], sy .arrow, id' (str% "Weight"), .group .brace (bodyTrees style dbName f ++ [])])

/-- Several functions. -/
def plainFns (style : Style) : List GenFn → List RTree
  | [] => []
  | f :: l => plainFn style f ++ plainFns style l

theorem genFns_plain (style : Style) (fns : List GenFn) : GenFnsTrees style fns (plainFns style fns) := by
  induction fns with
  | nil => exact .nil
  | cons f l ih => exact .cons ⟨dbName, [], [], [], [], .inl rfl, .none, .none, .inl rfl, rfl⟩ ih

theorem spelled_body (style : Style) {f : GenFn} (h : ∀ x ∈ f.summands, ∀ c ∈ x.comps, Word c) : Spelled (bodyTrees style dbName f) := by
  refine spelled_append (spelled_weight _ _ _) (spelled_flatten ?_)
  intro ts ht
  obtain ⟨x, hx, rfl⟩ := List.mem_map.1 ht
  exact spelled_call (by decide) (spelled_summand style x (h x hx))

theorem spelled_plain (style : Style) {fns : List GenFn} (hok : ∀ f ∈ fns, f.Ok style)
    (hs : ∀ f ∈ fns, ∀ t, DocLine.text t ∈ f.docs → ∀ r, t ≠ '/' :: r) : Spelled (plainFns style fns) := by
  induction fns with
  | nil => exact spelled_nil
  | cons f l ih =>
    refine spelled_append ?_ (ih (fun f hf => hok f (List.mem_cons_of_mem _ hf)) fun f hf => hs f (List.mem_cons_of_mem _ hf))
    obtain ⟨hn, hd, _, _, hsum, _⟩ := hok f List.mem_cons_self
    have hs := hs f List.mem_cons_self
    refine spelled_append (spelled_append ?_ spelled_nil) (spelled_cons spelled_fn (spelled_cons (spelled_word hn.1) (spelled_append spelled_nil
      (spelled_cons (spelled_group spelled_nil) (spelled_cons (spelled_sym (by simp)) (spelled_cons (spelled_lit (by decide)) (spelled_group
        (spelled_append (spelled_body style fun x hx c hc => ((hsum x hx).1 c hc).1.1) spelled_nil))))))))
    generalize f.docs = docs at hd hs
    induction docs with
    | nil => exact spelled_nil
    | cons d docs ihd =>
      exact spelled_cons (spelled_doc (hd d List.mem_cons_self) fun t ht => hs t (by rw [← ht]; exact List.mem_cons_self))
        (ihd (fun d h => hd d (List.mem_cons_of_mem _ h)) fun t ht => hs t (List.mem_cons_of_mem _ ht))

/-- The tokens of a file with these functions and nothing else. -/
def plainTrees (style : Style) (fns : List GenFn) : List RTree :=
  id' (str% "impl") :: id' (str% "WeightInfo") :: id' (str% "for") :: id' (str% "WeightInfo") :: [.group .brace (plainFns style fns)]

/-- A text of a file with these functions and nothing else. -/
def plainText (style : Style) (fns : List GenFn) : Str := spellAll (toksOf (plainTrees style fns))

theorem plainText_file (style : Style) {fns : List GenFn} (hok : ∀ f ∈ fns, f.Ok style)
    (hs : ∀ f ∈ fns, ∀ t, DocLine.text t ∈ f.docs → ∀ r, t ≠ '/' :: r) : GenFile style fns (plainText style fns) := by
  have hsp : Spelled (plainTrees style fns) := spelled_cons spelled_impl (spelled_cons (spelled_lit (by decide)) (spelled_cons spelled_for
    (spelled_cons (spelled_lit (by decide)) (spelled_group (spelled_plain style hok hs)))))
  refine ⟨[], [], [], [], [], [id' (str% "WeightInfo")], [id' (str% "WeightInfo")], [], [], plainFns style fns, [], [], [], [],
    .path false [str% "WeightInfo"], .path false [str% "WeightInfo"], .nil, .nil, by simp, .nil, .none, .none, .path (.one (Gen.name_of (by decide))) .none,
    .path (.one (Gen.name_of (by decide))) .none, .inr (.inl rfl), .none, .nil, genFns_plain style fns, .nil, ?_⟩
  have e : ([] ++ ([] ++ ([] ++ [] ++ id' (str% "impl") :: ([] ++ [id' (str% "WeightInfo")] ++ id' (str% "for") ::
      ([id' (str% "WeightInfo")] ++ [] ++ [RTree.group .brace ([] ++ plainFns style fns)])) ++ []))) = plainTrees style fns := by simp [plainTrees]
  intro ts
  have : ts = plainTrees style fns := e
  rw [this]
  exact ⟨hsp.2, layout_spell hsp.1⟩

/-- C79: whatever functions the benchmarking tool can have written, there is a file with them, and it is read as it is meant.  (A line of documentation that starts
with a slash cannot be written, since `////` starts a comment.) -/
theorem C79_every (style : Style) (fns : List GenFn) (hne : fns ≠ []) (hok : ∀ f ∈ fns, f.Ok style)
    (hs : ∀ f ∈ fns, ∀ t, DocLine.text t ∈ f.docs → ∀ r, t ≠ '/' :: r) :
    ∃ s, GenFile style fns s ∧ ∀ cc pallet, ∃ exts, parseContent rustSyn cc pallet s = .ok exts ∧ List.Forall₂ (ReadAs pallet) fns exts :=
  ⟨plainText style fns, plainText_file style hok hs, fun cc pallet => C79_weight_file cc pallet (plainText_file style hok hs) hne hok⟩

end Swc
