/-
C94: the result page in the browser.
-/
import Verif.Spec.ResultPage
import Verif.Props.Crowd

namespace Swc

open Spec

/-! ### The controls -/

theorem changeControl_eq {u : Utf8Lossy} {q : Bytes} {id : Str} {x : Setting} {c : Str × Str} (h : resultControls.find? (fun c => c.1 ++ c.2 = id) = some c) :
    changeControl u q id x = urlRedirect u q c.2 (x.passed c.1) := by
  unfold changeControl
  rw [h]

/-- C94: every control changes what it shows.  The page for a query that asks for `a` is open; the user sets a control to another value.  Then the script opens
a page whose query asks for `a` with that argument changed. -/
theorem C94_edit (u : Utf8Lossy) {q : Bytes} {a a' : CompareArgs} {id : Str} {x : Setting} (h : parseQuery u q = some a) (hw : Wants a id x a') :
    ∃ q', changeControl u q id x = some q' ∧ parseQuery u q' = some a' := by
  have key : ∀ {k v : Str} {c : Str × Str}, resultControls.find? (fun c => c.1 ++ c.2 = id) = some c → c.2 = k → x.passed c.1 = v → v ≠ [] →
      Edited a k v a' → ∃ q', changeControl u q id x = some q' ∧ parseQuery u q' = some a' := by
    intro k v c hc hk hv hne he
    obtain ⟨q', h1, h2⟩ := C70_control u h he hne
    exact ⟨q', by rw [changeControl_eq hc, hk, hv, h1], h2⟩
  cases hw with
  | old hv => exact key (c := (str% "input_", str% "old")) (by decide) rfl rfl hv .old
  | new hv => exact key (c := (str% "input_", str% "new")) (by decide) rfl rfl hv .new
  | pathPattern hv => exact key (c := (str% "input_", str% "path_pattern")) (by decide) rfl rfl hv .pathPattern
  | pallet hv => exact key (c := (str% "input_", str% "pallet")) (by decide) rfl rfl hv .pallet
  | extrinsic hv => exact key (c := (str% "input_", str% "extrinsic")) (by decide) rfl rfl hv .extrinsic
  | threshold hv =>
    refine key (c := (str% "input_", str% "threshold")) (by decide) rfl rfl ?_ (.threshold hv)
    rintro rfl
    rcases hv.2 with h | ⟨w, h, _⟩ <;> cases h
  | unit hv =>
    refine key (c := (str% "select_", str% "unit")) (by decide) rfl rfl ?_ (.unit hv)
    rintro rfl
    rename_i d
    cases d with
    | time => rcases hv with h | h <;> cases h
    | proof => cases hv
  | method hv =>
    refine key (c := (str% "select_", str% "method")) (by decide) rfl rfl ?_ (.method hv)
    rintro rfl
    rename_i d
    cases d <;> cases hv
  | repo hv => exact key (c := (str% "select_", str% "repo")) (by decide) rfl rfl hv .repo
  | @ignoreErrors b =>
    exact key (c := (str% "checkbox_", str% "ignore_errors")) (by decide) rfl rfl (by cases b <;> decide) (.ignoreErrors (b := b) rfl)
  | @gitPull b => exact key (c := (str% "checkbox_", str% "git_pull")) (by decide) rfl rfl (by cases b <;> decide) (.gitPull (b := b) rfl)

/-- C94: the lists of the page offer every dimension, every method and every repository of the site, each once, and choosing is something that the page
understands. -/
theorem C94_choices {b : Build} {version : Str} {repos : List Str} {org : Str} {a : CompareArgs} {diff : List ExtrinsicDiff} {wasCached : Bool} {page : Str}
    (hr : BareNames repos) (h : comparePage b version repos org a diff wasCached = .ok page) (a0 : CompareArgs) :
    (∃ ds : List Dimension, ds.Nodup ∧ (∀ d, d ∈ ds) ∧
      List.Forall₂ (fun d v => Wants a0 (str% "select_unit") (.value v) { a0 with unit := d }) ds
        ((choices (tokens page) (str% "select_unit")).map Prod.fst)) ∧
    (∃ ms : List CompareMethod, ms.Nodup ∧ (∀ m, m ∈ ms) ∧
      List.Forall₂ (fun m v => Wants a0 (str% "select_method") (.value v) { a0 with method := m }) ms
        ((choices (tokens page) (str% "select_method")).map Prod.fst)) ∧
    (choices (tokens page) (str% "select_repo")).map Prod.fst = repos ∧
    ∀ v ∈ repos, Wants a0 (str% "select_repo") (.value v) { a0 with repo := v } := by
  obtain ⟨rest, e⟩ := page_controls hr h
  refine ⟨⟨[.time, .proof], by decide, fun d => by cases d <;> decide, ?_⟩,
    ⟨[.base, .guessWorst, .exactWorst, .exactAsymptotic, .asymptotic], by decide, fun d => by cases d <;> decide, ?_⟩, (C72_repo hr h).1,
    fun v hv => .repo (hr v hv).1⟩
  · rw [e, units_choices, List.map_map]
    exact .cons (.unit (.inl rfl)) (.cons (.unit rfl) .nil)
  · rw [e, methods_choices, List.map_map]
    exact .cons (.method rfl) (.cons (.method rfl) (.cons (.method rfl) (.cons (.method rfl) (.cons (.method rfl) .nil))))

/-- C94: a text is not sent if it is empty, so a filter cannot be removed by clearing its field: nothing happens, and the page does not show what it is about
anymore. -/
theorem C94_false_empty (u : Utf8Lossy) (q : Bytes) (id : Str) (h : ∀ n, id ≠ str% "checkbox_" ++ n) : changeControl u q id (.value []) = none := by
  unfold changeControl
  cases hc : resultControls.find? fun c => c.1 ++ c.2 = id with
  | none => rfl
  | some c =>
    have hid := List.find?_some hc
    have : Setting.passed c.1 (.value []) = [] := by
      unfold Setting.passed
      refine if_neg fun hk => h c.2 ?_
      rw [← hk]
      exact (of_decide_eq_true hid).symm
    dsimp only
    rw [this]
    rfl

/-- C94: a threshold that is no whole number below 2^32 is sent, but the server does not understand the query. -/
theorem C94_false_threshold (u : Utf8Lossy) (q : Bytes) {v : Str} (hv : v ≠ []) (h : ∀ n, ¬ ReadsU32 v n) :
    ∃ q', changeControl u q (str% "input_threshold") (.value v) = some q' ∧ parseQuery u q' = none := by
  refine ⟨formSerialize (setParam (str% "threshold") v (formPairs u q)), ?_, ?_⟩
  · rw [changeControl_eq (c := (str% "input_", str% "threshold")) (by decide)]
    exact if_neg hv
  · rw [Option.eq_none_iff_forall_ne_some]
    intro a ha
    obtain ⟨w, h1, h2⟩ := ((C69_query u (C69_serialized _) a).1 ha).threshold
    rw [once_unique h1 (setParam_once _ _ _)] at h2
    exact h _ h2

example : ∀ n, ¬ ReadsU32 (str% "2.5") n := by
  rintro n ⟨-, h | ⟨w, h, -⟩⟩
  · have : readNat (str% "2.5") = none := by decide
    rw [this] at h
    cases h
  · cases h

/-! ### Visits -/

/-- C94: visits.  Whatever controls the user sets, one after the other, the query of the page they are on asks for the first comparison with exactly these
changes, and its controls show that. -/
theorem C94_session (u : Utf8Lossy) (ent : Entities) {serves : Bytes → Str → Prop} {names : List Str} (hn : BareNames names)
    (hs : ∀ q page a, serves q page → requestArgs u ent q = some a →
      ∃ b version org diff cached, a.repo ∈ names ∧ comparePage b version names org a diff cached = .ok page)
    {q0 q : Bytes} {l : List (Str × Setting)} {page : Str} (hb : Browses serves u q0 l q page) {a0 a : CompareArgs} (h0 : parseQuery u q0 = some a0)
    (hw : WantsAll a0 l a) :
    parseQuery u q = some a ∧ Shows (tokens page) (asDecoded ent a) ∧ chosen (tokens page) (str% "select_repo") = some a.repo := by
  induction hb generalizing a0 with
  | here h =>
    cases hw
    obtain ⟨b, version, org, diff, cached, hm, hp⟩ := hs _ _ (asDecoded ent a) h (by unfold requestArgs; rw [h0]; rfl)
    exact ⟨h0, C72_controls hn hp, (C72_repo hn hp).2 hm⟩
  | change _ hc _ ih =>
    cases hw with
    | cons h1 h2 =>
      obtain ⟨q', e, hq'⟩ := C94_edit u h0 h1
      rw [hc] at e
      cases e
      exact ih hq' h2

/-- C94: visits of the site.  The page that the user is on after any changes asks for exactly what they want, shows it in its controls, and if the server can
compare it then the page shows the report. -/
theorem C94_visit {W : World} {s : Site} {m : Machine} {args : List Str} {cmd : ServerCmd} (hS : s.Started m args cmd) (hb : s.srv.build = .release)
    (hsyn : s.srv.env.syn = rustSyn) {st0 : SiteState W.State} (hR : s.Reachable W st0) (hn : BareNames cmd.repos)
    {N : Str → Str → Prop} {q0 q : Bytes} {l : List (Str × Setting)} {page : Str} (hv : Browses (Opened W s st0 N) s.u q0 l q page) {a0 a : CompareArgs}
    (h0 : parseQuery s.u q0 = some a0) (hw : WantsAll a0 l a) :
    parseQuery s.u q = some a ∧ Shows (tokens page) (asDecoded s.ent a) ∧ chosen (tokens page) (str% "select_repo") = some a.repo ∧
    ∀ org olds news, Comparable W s m cmd st0.conf (N a.repo) (asDecoded s.ent a) org olds news →
      ∃ all diff, ShowsReport s.srv.rx (asDecoded s.ent a) org olds news all diff page := by
  have hbare : BareNames s.names := fun n h => hn n ((C89_serves hS n).1.1 h)
  obtain ⟨h1, h2, h3⟩ := C94_session s.u s.ent hbare (serves := Opened W s st0 N) (fun q page a ho ha => by
    obtain ⟨st, k, x, hst, -, -, hk, hr⟩ := ho
    rcases compare_core (reachable_ahead hR hst) hS hk hr (C89_plain (h := .compare) rfl q) ha with ⟨-, h, -⟩ | ⟨_, _, _, _, _, _, h, -⟩ |
      ⟨id, diff, cached, t, org, -, -, hm, -, -, -, hp⟩
    · cases h
    · cases h
    · exact ⟨_, _, org, diff, cached, (C89_serves hS _).1.2 hm, hp⟩) hv h0 hw
  refine ⟨h1, h2, h3, fun org olds news hC => ?_⟩
  have hlast : ∀ {q0 q l page}, Browses (Opened W s st0 N) s.u q0 l q page → Opened W s st0 N q page := by
    intro q0 q l page h
    induction h with
    | here h => exact h
    | change _ _ _ ih => exact ih
  obtain ⟨st, k, x, hst, hco, hk0, hk, hr⟩ := hlast hv
  obtain ⟨all, diff, page', e, hsh⟩ := C93_right hS hb hsyn hR hst (C89_plain (h := .compare) rfl q) (a := asDecoded s.ent a)
    (by unfold requestArgs; rw [h1]; rfl) hC (hco a.repo) hk hk0 hr
  cases e
  exact ⟨all, diff, hsh⟩

/-! ### Sorting -/

theorem notLt_trans {x y z : F64} (hx : x ≠ .nan) (hy : y ≠ .nan) (hz : z ≠ .nan) (h1 : F64.lt y x = false) (h2 : F64.lt z y = false) : F64.lt z x = false := by
  cases x <;> cases y <;> cases z <;> simp_all [F64.lt]
  linarith

theorem notLt_of_lt {x y : F64} (h : F64.lt y x = true) : F64.lt x y = false := by
  cases x <;> cases y <;> simp_all [F64.lt]
  linarith

theorem rnd_ne_nan (q : ℚ) : F64.rnd q ≠ .nan := by
  unfold F64.rnd
  split
  · nofun
  · split <;> nofun

theorem orderNumber_ne_nan (k : Nat) (r : DomRow) : orderNumber k r ≠ .nan := by
  unfold orderNumber jsNumber
  cases readInt (orderText k r) with
  | none => nofun
  | some z => exact rnd_ne_nan _

theorem rnd_lt {x y m : ℤ} (hm : |m| < 2 ^ 53) (hx : x ≤ m) (hy : m < y) : F64.lt (F64.rnd x) (F64.rnd y) = true := by
  have e1 : F64.rnd m = .fin m := by
    rw [F64.rnd_fin, F64.rndQ_int (le_of_lt hm)]
    have : |(m : ℚ)| < 2 ^ 53 := by exact_mod_cast hm
    exact this.trans (pow_lt_pow_right₀ (by norm_num) (by norm_num))
  have hm' : |m + 1| ≤ 2 ^ 53 := by
    rw [abs_lt] at hm
    exact abs_le.2 ⟨by omega, by omega⟩
  have e2 : F64.rnd (m + 1 : ℤ) = .fin (m + 1 : ℤ) := by
    rw [F64.rnd_fin, F64.rndQ_int hm']
    have : |((m + 1 : ℤ) : ℚ)| ≤ 2 ^ 53 := by exact_mod_cast hm'
    exact lt_of_le_of_lt this (pow_lt_pow_right₀ (by norm_num) (by norm_num))
  have h1 : F64.le (F64.rnd x) (.fin m) = true := e1 ▸ rnd_mono (by exact_mod_cast hx)
  have h2 : F64.le (.fin (m + 1 : ℤ)) (F64.rnd y) = true := e2 ▸ rnd_mono (by exact_mod_cast hy)
  revert h1 h2
  cases F64.rnd x <;> cases F64.rnd y <;> simp [F64.lt, F64.le, F64.feq]
  intro h1 h2
  have h1 := h1.elim le_of_lt le_of_eq
  have h2 := h2.elim le_of_lt le_of_eq
  linarith

/-- In a column of numbers, whatever may precede is not above. -/
theorem notAbove_of {x y : ℤ} (h : F64.lt (F64.rnd y) (F64.rnd x) = false) : NotAbove x y := by
  intro m hm hy
  by_contra hx
  rw [rnd_lt hm hy (not_le.1 hx)] at h
  cases h

theorem sortRows_numeric (txt : Str → Str → Bool) {k : Nat} (d : Dir) {rows : List DomRow} (h : numericColumn k rows = true) :
    StablySorted (fun a b => mayPrecede txt true k d a b = true) rows (sortRows txt k d rows) := by
  have trans : ∀ a b c : DomRow, mayPrecede txt true k d a b = true → mayPrecede txt true k d b c = true → mayPrecede txt true k d a c = true := by
    intro a b c
    cases d <;> simp only [mayPrecede, if_true, Bool.not_eq_true'] <;> intro h1 h2
    · exact notLt_trans (orderNumber_ne_nan k a) (orderNumber_ne_nan k b) (orderNumber_ne_nan k c) h1 h2
    · exact notLt_trans (orderNumber_ne_nan k c) (orderNumber_ne_nan k b) (orderNumber_ne_nan k a) h2 h1
  have total : ∀ a b : DomRow, (mayPrecede txt true k d a b || mayPrecede txt true k d b a) = true := by
    intro a b
    rw [Bool.or_eq_true]
    cases d <;> simp only [mayPrecede, if_true, Bool.not_eq_true']
    · cases hl : F64.lt (orderNumber k b) (orderNumber k a) with
      | false => exact .inl rfl
      | true => exact .inr (notLt_of_lt hl)
    · cases hl : F64.lt (orderNumber k a) (orderNumber k b) with
      | false => exact .inl rfl
      | true => exact .inr (notLt_of_lt hl)
  unfold sortRows
  rw [h]
  haveI : IsTrans DomRow (fun a b => mayPrecede txt true k d a b = true) := ⟨trans⟩
  haveI : Std.Total (fun a b : DomRow => mayPrecede txt true k d a b = true) := ⟨fun a b => by simpa using total a b⟩
  exact ⟨List.perm_insertionSort _ _, List.pairwise_insertionSort _ _, fun a b hab _ hs => List.pair_sublist_insertionSort hab hs⟩

theorem numericColumn_perm {k : Nat} {l l' : List DomRow} (h : l.Perm l') : numericColumn k l = numericColumn k l' := by
  unfold numericColumn
  rw [Bool.eq_iff_iff, List.all_eq_true, List.all_eq_true]
  exact forall_congr' fun x => by rw [h.mem_iff]

/-- The numbers of a row. -/
theorem readInt_of_readNat {s : Str} {n : Nat} (h : readNat s = some n) : readInt s = some (n : ℤ) := by
  cases s with
  | nil => cases h
  | cons c s =>
    by_cases hc : c = '-'
    · subst hc
      exfalso
      revert h
      simp [readNat, readDigits, digitVal]
    · unfold readInt
      split
      · rename_i e; cases e; exact absurd rfl hc
      · rw [h]; rfl

theorem row_key {org : Str} {a : CompareArgs} {p : ExtrinsicDiff × TermChange} {row : DomRow} (h : RowOf org a p row) {k : Nat} (h2 : 2 ≤ k) (h5 : k ≤ 5) :
    ∃ z, ColumnKey k p.2 z ∧ jsNumber (orderText k row) = some (F64.rnd z) := by
  obtain ⟨c0, c1, c2, c3, c4, c5, c6, c7, c8, e, hs⟩ := h
  have key : ∀ {c : Cell} {z : ℤ}, row.2[k]? = some c → (c.attrs.lookup (str% "data-order")).bind readInt = some z →
      jsNumber (orderText k row) = some (F64.rnd z) := by
    intro c z hc hz
    obtain ⟨v, hv, hz⟩ := Option.bind_eq_some_iff.1 hz
    unfold jsNumber orderText
    rw [hc]
    dsimp only
    rw [hv, Option.getD_some, hz]
    rfl
  have nat : ∀ {o : Option Str} {n : Nat}, o.bind readNat = some n → o.bind readInt = some (n : ℤ) := by
    intro o n h
    obtain ⟨v, hv, h⟩ := Option.bind_eq_some_iff.1 h
    rw [hv]
    exact readInt_of_readNat h
  obtain rfl | rfl | rfl | rfl : k = 2 ∨ k = 3 ∨ k = 4 ∨ k = 5 := by omega
  · exact ⟨_, rfl, key (c := c2) (by rw [e]; rfl) (nat hs.oldKey)⟩
  · exact ⟨_, rfl, key (c := c3) (by rw [e]; rfl) (nat hs.newKey)⟩
  · exact ⟨_, rfl, key (c := c4) (by rw [e]; rfl) hs.relKey⟩
  · obtain ⟨z, hz, h⟩ := hs.absOther
    refine ⟨z, ⟨fun o n hc ho hn bo bn => ?_, h⟩, key (c := c5) (by rw [e]; rfl) hz⟩
    have := hs.absKey o n hc ho hn bo bn
    rw [hz] at this
    exact Option.some.inj this

theorem forall₂_pairwise {α β : Type} {R : α → β → Prop} {S : β → β → Prop} {T : α → α → Prop} {l : List α} {l' : List β} (h : List.Forall₂ R l l')
    (hp : l'.Pairwise S) (hT : ∀ a b a' b', R a b → R a' b' → S b b' → T a a') : l.Pairwise T := by
  induction h with
  | nil => exact .nil
  | cons h t ih =>
    rw [List.pairwise_cons] at hp ⊢
    refine ⟨fun a' ha' => ?_, ih hp.2⟩
    obtain ⟨b', hb', hr⟩ := forall₂_mem_left t ha'
    exact hT _ _ _ _ h hr (hp.1 b' hb')

/-- Sorting the rows by a column of numbers. -/
theorem sorted_rows {org : Str} {a : CompareArgs} {entries : List (ExtrinsicDiff × TermChange)} {rows rows' : List DomRow}
    (hf : List.Forall₂ (RowOf org a) entries rows) (hp : rows'.Perm rows) (txt : Str → Str → Bool) (d : Dir) {k : Nat} (h2 : 2 ≤ k) (h5 : k ≤ 5) :
    ∃ shown, shown.Perm entries ∧ List.Forall₂ (RowOf org a) shown (sortRows txt k d rows') ∧ shown.Pairwise (fun p q => InOrder k d p.2 q.2) ∧
      StablySorted (fun x y => mayPrecede txt true k d x y = true) rows' (sortRows txt k d rows') := by
  have hnum : numericColumn k rows' = true := by
    rw [numericColumn_perm hp]
    unfold numericColumn
    rw [List.all_eq_true]
    intro r hr
    obtain ⟨p, _, h⟩ := forall₂_mem_right hf hr
    obtain ⟨z, _, hz⟩ := row_key h h2 h5
    rw [hz]
    rfl
  have hs := sortRows_numeric txt d hnum
  obtain ⟨shown, hf', hp'⟩ := List.perm_comp_forall₂ (r := fun x y => RowOf org a y x) (hs.perm.trans hp) hf.flip
  refine ⟨shown, hp', hf'.flip, ?_, hs⟩
  refine forall₂_pairwise hf'.flip hs.sorted fun p x q y hx hy hxy => ?_
  obtain ⟨z, h1, e1⟩ := row_key hx h2 h5
  obtain ⟨z', h1', e1'⟩ := row_key hy h2 h5
  refine ⟨z, z', h1, h1', ?_⟩
  unfold mayPrecede orderNumber at hxy
  rw [e1, e1'] at hxy
  cases d
  · exact notAbove_of (by simpa using hxy)
  · exact notAbove_of (by simpa using hxy)

/-- The range of the keys of relative changes. -/
theorem orderPercent_values (c : TermChange) : (c.change = .unchanged → orderPercent c = 0) ∧ (c.change = .added → orderPercent c = 2 ^ 127 - 1) ∧
    (c.change = .removed → orderPercent c = -2 ^ 127) := by
  unfold orderPercent
  refine ⟨fun h => ?_, fun h => ?_, fun h => ?_⟩ <;> rw [h] <;> rfl

theorem orderPercent_le (c : TermChange) (h : c.change ≠ .added) : orderPercent c ≤ u32Max := by
  cases hc : c.change with
  | changed => rw [orderPercent_changed hc]; exact min_le_right _ _
  | unchanged => rw [(orderPercent_values c).1 hc]; decide
  | added => exact absurd hc h
  | removed => rw [(orderPercent_values c).2.2 hc]; decide

theorem orderPercent_ge (c : TermChange) (h : c.change ≠ .removed) (hc : c.change = .changed → Computed c) : -100000 ≤ orderPercent c := by
  cases hk : c.change with
  | changed =>
    rw [orderPercent_changed hk]
    obtain ⟨o, n, _, _, ho, hn, hp⟩ := hc hk
    rw [hp]
    exact le_min (rank_percent_ge ho hn) (by decide)
  | unchanged => rw [(orderPercent_values c).1 hk]; decide
  | added => rw [(orderPercent_values c).2.1 hk]; decide
  | removed => exact absurd hk h

/-- In descending order of the keys, the worse comes first. -/
theorem worseFirst_of {c d : TermChange} (hd : d.change = .changed → Computed d) (h : NotAbove (orderPercent d) (orderPercent c)) : WorseFirst c d := by
  have range : ∀ {x : TermChange}, x.change = .changed → -4294967000 ≤ rank x.percent → |orderPercent x| < 2 ^ 53 := by
    intro x hx hr
    rw [orderPercent_changed hx, abs_lt]
    have : u32Max = 4294967295 := rfl
    rw [this]
    omega
  constructor
  · intro hda
    by_contra hca
    have := h u32Max (by decide) (orderPercent_le c hca)
    rw [(orderPercent_values d).2.1 hda] at this
    revert this
    decide
  · intro hcr
    by_contra hdr
    have h1 := orderPercent_ge d hdr hd
    have h2 : orderPercent c ≤ -100001 := by rw [(orderPercent_values c).2.2 hcr]; decide
    have := h (-100001) (by decide) h2
    omega
  · intro p q hc hd' hp hq h1 h2 hlt
    have e0 : rank (.fin (-4294967)) = -4294967000 := by decide +kernel
    have hr : -4294967000 ≤ rank c.percent := by
      rw [← e0, hp]
      exact rank_mono_all (F64.le_fin.2 h1)
    have := h _ (range hc hr) le_rfl
    exact absurd (C57_distinguishes c d hc hd' p q hp hq h1 h2 hlt) (not_lt.2 this)
  · intro p hc hd' hp h1 hinf
    have e0 : rank (.fin 4294967) = 4294967000 := by decide +kernel
    have e1 : orderPercent d = 4294967295 := by rw [orderPercent_changed hd', hinf]; decide +kernel
    have h2 : orderPercent c ≤ 4294967000 := by
      rw [orderPercent_changed hc, hp, ← e0]
      exact (min_le_left _ _).trans (rank_mono_all (F64.le_fin.2 h1))
    have := h 4294967000 (by decide) h2
    omega
  · intro hc hd'
    rw [Bool.eq_false_iff]
    intro hle
    have h1 := (C57_around_unchanged d c hd' hc).1 hle
    have e0 : orderPercent c = 0 := by unfold orderPercent; rw [hc]
    have := h 0 (by decide) e0.le
    omega
  · intro hc hd'
    rw [Bool.eq_false_iff]
    intro hle
    have h1 := (C57_around_unchanged c d hc hd').2 hle
    have e0 : orderPercent d = 0 := by unfold orderPercent; rw [hd']
    have := h (-1) (by decide) (by omega)
    omega

/-- The entries of a report that have a row. -/
def Spec.rowEntries (diff : List ExtrinsicDiff) : List (ExtrinsicDiff × TermChange) := diff.filterMap fun e => (numbers e.change).map fun c => (e, c)

theorem mem_rowEntries {diff : List ExtrinsicDiff} {p : ExtrinsicDiff × TermChange} (h : p ∈ rowEntries diff) : p.1 ∈ diff ∧ numbers p.1.change = some p.2 := by
  obtain ⟨e, he, h⟩ := List.mem_filterMap.1 h
  obtain ⟨c, hc, rfl⟩ := Option.map_eq_some_iff.1 h
  exact ⟨he, hc⟩

/-- C94: the table when the page is ready.  It has exactly one row for each entry of the report with numbers, and the worse comes first: new calls on top, then
by relative change, removed calls at the bottom. -/
theorem C94_table {rx : RegexEngine} {a : CompareArgs} {org : Str} {olds news : List Located} {all diff : List ExtrinsicDiff} {page : Str}
    (h : ShowsReport rx a org olds news all diff page) (txt : Str → Str → Bool) :
    ∃ shown, shown.Perm (rowEntries diff) ∧
      List.Forall₂ (RowOf org a) shown (DataTable.load txt (tableRows (tokens page) (str% "sort_me"))).rows ∧
      shown.Pairwise fun p q => WorseFirst p.2 q.2 := by
  obtain ⟨shown, h1, h2, h3, -⟩ := sorted_rows (entries := rowEntries diff) h.rows (.refl _) txt .desc (k := 4) (by omega) (by omega)
  refine ⟨shown, h1, h2, h3.imp_of_mem fun {p q} _ hq hpq => ?_⟩
  obtain ⟨z, z', rfl, rfl, hz⟩ := hpq
  obtain ⟨hm, hn⟩ := mem_rowEntries (h1.mem_iff.1 hq)
  exact worseFirst_of (h.computed _ hm _ hn) hz

theorem sortRows_perm (txt : Str → Str → Bool) (k : Nat) (d : Dir) (rows : List DomRow) : (sortRows txt k d rows).Perm rows := List.perm_insertionSort _ _

theorem clicks_perm (txt : Str → Str → Bool) (rows : List DomRow) (ks : List Nat) : (ks.foldl (DataTable.click txt) (.load txt rows)).rows.Perm rows := by
  have : ∀ (ks : List Nat) (t : DataTable), (ks.foldl (DataTable.click txt) t).rows.Perm t.rows := by
    intro ks
    induction ks with
    | nil => exact fun t => .refl _
    | cons k ks ih => exact fun t => (ih _).trans (sortRows_perm _ _ _ _)
  exact (this ks _).trans (sortRows_perm _ _ _ _)

/-- C94: however often the heads of the table are clicked, it shows the same rows; and after a click on the head of a column with numbers they are sorted by what
the column is about, in ascending order if it was sorted by another column before, otherwise in the other direction than before; rows with equal keys stay in
their order. -/
theorem C94_clicks {rx : RegexEngine} {a : CompareArgs} {org : Str} {olds news : List Located} {all diff : List ExtrinsicDiff} {page : Str}
    (h : ShowsReport rx a org olds news all diff page) (txt : Str → Str → Bool) (ks : List Nat) (k : Nat) :
    let t := ks.foldl (DataTable.click txt) (.load txt (tableRows (tokens page) (str% "sort_me")))
    let t' := t.click txt k
    (∃ shown, shown.Perm (rowEntries diff) ∧ List.Forall₂ (RowOf org a) shown t'.rows) ∧
    t'.column = k ∧ (t.column ≠ k → t'.dir = .asc) ∧ (t.column = k → t'.dir ≠ t.dir) ∧
    (2 ≤ k → k ≤ 5 → ∃ shown, shown.Perm (rowEntries diff) ∧ List.Forall₂ (RowOf org a) shown t'.rows ∧
      shown.Pairwise (fun p q => InOrder k t'.dir p.2 q.2) ∧ StablySorted (fun x y => mayPrecede txt true k t'.dir x y = true) t.rows t'.rows) := by
  intro t t'
  have hp : t.rows.Perm (tableRows (tokens page) (str% "sort_me")) := clicks_perm txt _ ks
  refine ⟨?_, rfl, fun hk => if_neg hk, fun hk => ?_, fun h2 h5 => ?_⟩
  · obtain ⟨shown, hf, hs⟩ := List.perm_comp_forall₂ (r := fun x y => RowOf org a y x) ((sortRows_perm txt k t'.dir t.rows).trans hp) (List.Forall₂.flip h.rows)
    exact ⟨shown, hs, hf.flip⟩
  · have : t'.dir = (match t.dir with | .asc => .desc | .desc => .asc) := if_pos hk
    rw [this]
    cases t.dir <;> nofun
  · exact sorted_rows (entries := rowEntries diff) h.rows hp txt t'.dir h2 h5

/-! ### The row in the address -/

theorem locationHash_safe {s : Str} (hs : s ≠ []) (h : FragmentSafe s) : locationHash s = '#' :: s := by
  have hesc : ∀ c ∈ s, fragmentEscaped c = false := by
    intro c hc
    obtain ⟨h1, h2, h3, h4, h5, h6⟩ := h c hc
    unfold fragmentEscaped
    simp only [Bool.or_eq_false_iff, beq_eq_false_iff_ne, decide_eq_false_iff_not]
    exact ⟨⟨⟨⟨⟨by omega, by omega⟩, h3⟩, h4⟩, h5⟩, h6⟩
  have hf : s.filter (fun c => decide (c ≠ '\t' ∧ c ≠ '\n' ∧ c ≠ '\r')) = s := by
    rw [List.filter_eq_self]
    intro c hc
    have h1 := (h c hc).1
    refine decide_eq_true ⟨?_, ?_, ?_⟩ <;> rintro rfl <;> exact absurd h1 (by decide)
  have hm : (s.flatMap fun c => if fragmentEscaped c then ((utf8 [c]).flatMap pct).map (fun b => Char.ofNat b.toNat) else [c]) = s := by
    rw [List.flatMap_congr (g := fun c => [c]) fun c hc => by rw [hesc c hc]; rfl]
    simp
  unfold locationHash
  rw [hf, hm]
  exact if_neg hs

theorem dotted_inj {f n f' n' : Str} (h : '.' ∉ n) (h' : '.' ∉ n') (e : f ++ str% "." ++ n = f' ++ str% "." ++ n') : f = f' ∧ n = n' := by
  rw [List.append_assoc, List.append_assoc] at e
  rcases List.append_eq_append_iff.1 e with ⟨l, h1, h2⟩ | ⟨l, h1, h2⟩
  · cases l with
    | nil => exact ⟨by rw [h1, List.append_nil], (List.cons.inj h2).2⟩
    | cons c l =>
      have e : n = l ++ '.' :: n' := (List.cons.inj h2).2
      exact absurd (by rw [e]; simp) h
  · cases l with
    | nil => exact ⟨by rw [h1, List.append_nil], (List.cons.inj h2).2.symm⟩
    | cons c l =>
      have e : n' = l ++ '.' :: n := (List.cons.inj h2).2
      exact absurd (by rw [e]; simp) h'

/-- C94: the link in a row leads to the row.  If the page is opened with the address of the link in the cell with the name of a call then exactly the row of this
call is selected, provided that no characters of the path have to be encoded in addresses (and none of the name, nor dots; Rust has no such names). -/
theorem C94_anchor {rx : RegexEngine} {a : CompareArgs} {org : Str} {olds news : List Located} {all diff : List ExtrinsicDiff} {page : Str}
    (h : ShowsReport rx a org olds news all diff page) (hs : ∀ x, x ∈ olds ∨ x ∈ news → FragmentSafe x.file ∧ FragmentSafe x.fn.name ∧ '.' ∉ x.fn.name)
    {rows : List DomRow} (hrows : rows.Perm (tableRows (tokens page) (str% "sort_me"))) {row : DomRow} (hrow : row ∈ rows) :
    ∃ cell link, row.2[1]? = some cell ∧ cell.links = [str% "#" ++ link] ∧ selectedRow rows (locationHash link) = some row := by
  obtain ⟨p, hp, c0, c1, c2, c3, c4, c5, c6, c7, c8, e, hr⟩ := forall₂_mem_right h.rows (hrows.mem_iff.1 hrow)
  have found : ∀ q ∈ rowEntries diff, ∃ x, (x ∈ olds ∨ x ∈ news) ∧ x.file = q.1.file ∧ x.fn.name = q.1.name := by
    intro q hq
    obtain ⟨k, -, hk⟩ := h.kept
    exact ((h.complete.2.1 q.1.file q.1.name).1 ⟨q.1, List.mem_of_mem_filter (hk.perm.mem_iff.1 (mem_rowEntries hq).1), rfl, rfl⟩).1
  have safe : ∀ q ∈ rowEntries diff, FragmentSafe q.1.file ∧ FragmentSafe q.1.name ∧ '.' ∉ q.1.name := by
    intro q hq
    obtain ⟨x, hx, e1, e2⟩ := found q hq
    rw [← e1, ← e2]
    exact hs x hx
  obtain ⟨s1, s2, s3⟩ := safe p hp
  refine ⟨c1, _, by rw [e]; rfl, hr.link, ?_⟩
  have hsafe : FragmentSafe (p.1.file ++ str% "." ++ p.1.name) := by
    intro c hc
    rw [List.mem_append, List.mem_append] at hc
    rcases hc with (hc | hc) | hc
    · exact s1 c hc
    · rw [List.mem_singleton.1 hc]; decide
    · exact s2 c hc
  have hne : p.1.file ++ str% "." ++ p.1.name ≠ [] := by simp
  unfold selectedRow
  rw [locationHash_safe hne hsafe]
  dsimp only [dropHash]
  rw [if_pos rfl, if_neg hne]
  have uniq : (rowEntries diff).Pairwise fun p q => (p.1.file, p.1.name) ≠ (q.1.file, q.1.name) := by
    obtain ⟨k, -, hk⟩ := h.kept
    have h1 : all.Pairwise fun x y => (x.file, x.name) ≠ (y.file, y.name) :=
      (List.pairwise_map.1 h.complete.1).imp fun hb he => by
        rcases hb with hb | ⟨-, hb⟩ <;> rw [Prod.mk.injEq] at he
        · exact List.lt_irrefl _ (he.1 ▸ hb)
        · exact List.lt_irrefl _ (he.2 ▸ hb)
    have h2 : diff.Pairwise fun x y => (x.file, x.name) ≠ (y.file, y.name) :=
      (hk.perm.pairwise_iff fun h => h.symm).2 (h1.filter _)
    unfold rowEntries
    rw [List.pairwise_filterMap]
    refine h2.imp fun {x y} hxy p hp q hq => ?_
    obtain ⟨_, -, rfl⟩ := Option.map_eq_some_iff.1 hp
    obtain ⟨_, -, rfl⟩ := Option.map_eq_some_iff.1 hq
    exact hxy
  have ids : (rows.map fun r => r.1.lookup (str% "id")).Nodup := by
    rw [(hrows.map _).nodup_iff]
    refine List.pairwise_map.2 (forall₂_pairwise (List.Forall₂.flip h.rows) (List.Pairwise.and_mem.1 uniq) ?_)
    rintro x p y q ⟨_, _, _, _, _, _, _, _, _, -, h1⟩ ⟨_, _, _, _, _, _, _, _, _, -, h2⟩ ⟨hp, hq, hpq⟩ he
    rw [h1.id, h2.id] at he
    have := dotted_inj (safe p hp).2.2 (safe q hq).2.2 (Option.some.inj he)
    exact hpq (Prod.ext this.1 this.2)
  have : ∀ r ∈ rows, r.1.lookup (str% "id") = some (p.1.file ++ str% "." ++ p.1.name) → r = row := fun r hm hi =>
    List.inj_on_of_nodup_map ids hm hrow (hi.trans hr.id.symm)
  cases hf : rows.reverse.find? fun r => r.1.lookup (str% "id") = some (p.1.file ++ str% "." ++ p.1.name) with
  | none =>
    have := List.find?_eq_none.1 hf row (List.mem_reverse.2 hrow)
    exact absurd (decide_eq_true hr.id) this
  | some r => rw [this r (List.mem_reverse.1 (List.mem_of_find?_eq_some hf)) (by simpa using List.find?_some hf)]

/-- C94: if the path has a character that is encoded in addresses then the link of the row selects nothing, since the script compares the encoded path. -/
theorem C94_false_anchor : ∃ row : DomRow, ∃ link, row.1.lookup (str% "id") = some link ∧ selectedRow [row] (locationHash link) = none :=
  ⟨([(str% "id", str% "my runtime/balances.rs.transfer")], []), str% "my runtime/balances.rs.transfer", rfl, by decide +kernel⟩

/-! ### A table with four rows -/

/-- A row of the table: identifier and the keys of the columns 2 to 5. -/
def exDomRow (id o n r d : Str) : DomRow :=
  let key := fun k => ({ attrs := [(str% "data-order", k)], text := k, styles := [], links := [] } : Cell)
  ([(str% "id", id)], [key (str% "a.rs"), key id, key o, key n, key r, key d])

def exDomRows : List DomRow :=
  [exDomRow (str% "a.rs.same") (str% "7") (str% "7") (str% "0") (str% "0"),
   exDomRow (str% "a.rs.gone") (str% "12") (str% "0") (str% "-170141183460469231731687303715884105728") (str% "-170141183460469231731687303715884105728"),
   exDomRow (str% "a.rs.more") (str% "10") (str% "15") (str% "50000") (str% "5"),
   exDomRow (str% "a.rs.new") (str% "0") (str% "3") (str% "170141183460469231731687303715884105727") (str% "170141183460469231731687303715884105727"),
   exDomRow (str% "a.rs.less") (str% "10") (str% "9") (str% "-10000") (str% "-1")]

/-- On load: new, more, same, less, gone. -/
example : (DataTable.load (fun _ _ => false) exDomRows).rows.map (fun r => r.1.lookup (str% "id")) =
    [str% "a.rs.new", str% "a.rs.more", str% "a.rs.same", str% "a.rs.less", str% "a.rs.gone"].map some := by decide +kernel

/-- After a click on the old weights (0, 7, 10, 10, 12, equal ones as before), and another one. -/
example : ((DataTable.load (fun _ _ => false) exDomRows).click (fun _ _ => false) 2).rows.map (fun r => r.1.lookup (str% "id")) =
    [str% "a.rs.new", str% "a.rs.same", str% "a.rs.more", str% "a.rs.less", str% "a.rs.gone"].map some := by decide +kernel

example : (((DataTable.load (fun _ _ => false) exDomRows).click (fun _ _ => false) 2).click (fun _ _ => false) 2).rows.map (fun r => r.1.lookup (str% "id")) =
    [str% "a.rs.gone", str% "a.rs.more", str% "a.rs.less", str% "a.rs.same", str% "a.rs.new"].map some := by decide +kernel

/-- The row of an address, and of one that is not in the table. -/
example : (selectedRow exDomRows (locationHash (str% "a.rs.more"))).map (fun r => r.1.lookup (str% "id")) = some (some (str% "a.rs.more")) := by decide +kernel

example : (selectedRow exDomRows (locationHash (str% "a.rs.other"))) = none ∧ selectedRow exDomRows (locationHash []) = none := by decide +kernel

/-- The hypotheses about reports are met: the page of the example for C93 shows a report, and the link of each of its rows selects the row. -/
example : ∃ page all diff, ShowsReport exRegex exClickArgs (str% "me") (exLocated 7000000) (exLocated 9000000) all diff page ∧
    ∀ row ∈ tableRows (tokens page) (str% "sort_me"), ∃ cell link, row.2[1]? = some cell ∧ cell.links = [str% "#" ++ link] ∧
      selectedRow (tableRows (tokens page) (str% "sort_me")) (locationHash link) = some row := by
  obtain ⟨q, -, inbox, -, ⟨g, h1, h2, h3⟩, h⟩ := C93_example
  obtain ⟨n, all, diff, page, -, hs⟩ := h g h1 h2 h3 0 (.inl rfl)
  refine ⟨page, all, diff, hs, fun row hrow => C94_anchor hs ?_ (.refl _) hrow⟩
  have key : ∀ n, ∀ x ∈ exLocated n, FragmentSafe x.file ∧ FragmentSafe x.fn.name ∧ '.' ∉ x.fn.name := by
    intro n x hx
    unfold FragmentSafe
    simp only [exLocated, exGenFns, List.map_cons, List.map_nil, List.append_nil, List.cons_append, List.nil_append, List.mem_cons, List.not_mem_nil, or_false] at hx
    rcases hx with rfl | rfl | rfl | rfl <;> dsimp only <;> decide
  rintro x (hx | hx)
  · exact key _ x hx
  · exact key _ x hx

/-- Three changes, one after the other. -/
example : WantsAll exClickArgs [(str% "input_threshold", .value (str% "3")), (str% "select_method", .value (str% "base")), (str% "checkbox_git_pull", .box false)]
    { exClickArgs with threshold := 3, method := .base, gitPull := some false } :=
  .cons (.threshold (n := 3) ⟨by decide, .inl (by decide)⟩) (.cons (.method (m := .base) rfl) (.cons .gitPull .nil))

end Swc
