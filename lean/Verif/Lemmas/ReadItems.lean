/-
The reader of `Verif.Model.RustText` reads every file of the grammar of `Verif.Spec.RustGrammar`.
-/
import Verif.Lemmas.ReadExpr

namespace Swc

open Spec RustText

/-! ### Attributes and visibility -/

theorem docEscape_of {s t : Str} (h : DocText s t) : docEscape s = some t := by
  induction h with
  | nil => rfl
  | quote _ ih => rw [docEscape, ih]; rfl
  | backslash _ ih => rw [docEscape, ih]; rfl
  | newline _ ih => rw [docEscape, ih]; rfl
  | tab _ ih => rw [docEscape, ih]; rfl
  | @plain c s t hc _ ih =>
    have ht : c ≠ '\t' := by rintro rfl; exact absurd hc.1 (by decide)
    have hn : c ≠ '\n' := by rintro rfl; exact absurd hc.1 (by decide)
    rw [docEscape, ih]
    show (if _ then _ else _) = _
    rw [if_neg hc.2.2.1, if_neg hc.2.2.2, if_neg ht, if_neg hn, if_pos ⟨hc.1, hc.2.1⟩]

theorem attrOf_other {us : List RTree} (h : sy .eq ∉ us) : attrOf us = some .other := by
  unfold attrOf
  split
  · exact absurd (by simp) h
  · rw [if_neg]
    intro ha
    obtain ⟨t, ht, h'⟩ := List.any_eq_true.1 ha
    split at h'
    · exact h ht
    · cases h'

/-- No attribute follows. -/
def endAttrs : List RTree → Bool
  | .tok (.doc _ _) :: _ => false
  | .tok (.sym .hash) :: _ => false
  | _ => true

theorem attrsAt_end {r : List RTree} (h : endAttrs r = true) : attrsAt r = some ([], r) := by
  rw [attrsAt.eq_def]
  split
  · cases h
  · cases h
  · rfl

theorem attrsAt_read {l : List Attr} {ts rest : List RTree} (h : AttrTrees l ts) (hr : endAttrs rest = true) : attrsAt (ts ++ rest) = some (l, rest) := by
  induction h with
  | nil => exact attrsAt_end hr
  | @doc s t l ts h _ ih => rw [List.cons_append, attrsAt, docAttr, docEscape_of h, ih]; rfl
  | @value x v l ts _ ih => rw [List.cons_append, List.cons_append, attrsAt, ih]; rfl
  | @attr us l ts h _ ih => rw [List.cons_append, List.cons_append, attrsAt, attrOf_other h, ih]

theorem skipVis_read {vis r : List RTree} {k : Str} (h : Vis vis) (hk : k ≠ str% "pub") : skipVis (vis ++ id' k :: r) = id' k :: r := by
  cases h with
  | none =>
    rw [List.nil_append, skipVis.eq_def]
    split
    · rename_i heq; cases heq; rw [if_neg hk]
    · rename_i heq; cases heq; rw [if_neg hk]
    · rfl
  | pub => rfl
  | «scoped» => rfl

theorem endAttrs_vis {vis r : List RTree} {k : Str} (h : Vis vis) : endAttrs (vis ++ id' k :: r) = true := by
  cases h <;> rfl

theorem reserved_ne {x k : Str} (hx : Name x) (hk : k ∈ reserved) : x ≠ k := by
  rintro rfl
  exact hx.2 hk

/-! ### Functions and `impl` blocks -/

theorem word_sum {e : Expr} {body : List RTree} (he : Sum e body) (r : List RTree) : word (body ++ r) ≠ str% "let" := by
  have hf := startsFree_sum he
  unfold startsFree at hf
  split at hf
  · rename_i x _
    intro h
    have h' : x = str% "let" := h
    exact hf (by rw [h']; decide)
  · exact fun h => absurd (show [] = str% "let" from h) (by decide)
  · exact fun h => absurd (show [] = str% "let" from h) (by decide)
  · exact hf.elim

theorem afterSemi_read {ts r : List RTree} (h : NoSemi ts) : afterSemi (ts ++ sy .semi :: r) = some r := by
  induction ts with
  | nil => rfl
  | cons t ts ih =>
    have ih := ih (fun hm => h (List.mem_cons_of_mem _ hm))
    rw [List.cons_append, afterSemi]
    · exact ih
    · rintro rfl
      exact h (List.mem_cons_self ..)

theorem stmtsAt_read {stmts : List Stmt} {body : List RTree} (h : StmtsTrees stmts body) : ∀ n, body.length ≤ n → stmtsAt n body = some stmts := by
  induction h with
  | nil => intro n _; cases n <;> rfl
  | @last e ts he =>
    intro n hn
    obtain ⟨t, r, rfl⟩ := startsFree_cons (startsFree_sum he)
    obtain ⟨m, rfl⟩ : ∃ m, n = m + 1 := ⟨n - 1, by simp at hn; omega⟩
    have h1 := exprAt_read he (rest := []) rfl
    have h2 := word_sum he []
    rw [List.append_nil] at h1 h2
    rw [stmtsAt, if_neg h2, h1]
  | @expr e ts us l he _ ih =>
    intro n hn
    obtain ⟨t, r, rfl⟩ := startsFree_cons (startsFree_sum he)
    obtain ⟨m, rfl⟩ : ∃ m, n = m + 1 := ⟨n - 1, by simp at hn; omega⟩
    have h1 := exprAt_read he (rest := sy .semi :: us) rfl
    have h2 := word_sum he (sy .semi :: us)
    rw [List.cons_append] at h1 h2 ⊢
    rw [stmtsAt, if_neg h2, h1]
    show (stmtsAt m us).map _ = _
    rw [ih m (by simp at hn; omega)]
    rfl
  | @«let» ts us l h _ ih =>
    intro n hn
    obtain ⟨m, rfl⟩ : ∃ m, n = m + 1 := ⟨n - 1, by simp at hn; omega⟩
    rw [stmtsAt, if_pos (show word (id' (str% "let") :: (ts ++ sy .semi :: us)) = str% "let" from rfl), afterSemi_read h]
    show (stmtsAt m us).map _ = _
    rw [ih m (by simp at hn; omega)]
    rfl

/-- The trees of a method begin with no bracket, so that they are not empty. -/
theorem fnTrees_length {f : ImplFn} {ts : List RTree} (h : FnTrees f ts) : 1 ≤ ts.length := by
  cases h
  simp only [List.length_append, List.length_cons]
  omega

theorem otherTrees_length {ts : List RTree} (h : OtherTrees ts) : 1 ≤ ts.length := by
  cases h <;> (simp only [List.length_append, List.length_cons]; omega)

theorem typeTrees_start {ty : Ty} {ts : List RTree} (h : TypeTrees ty ts) (r : List RTree) : endType (ts ++ r) = true := by
  cases h with
  | unit => rfl
  | path hp _ =>
    obtain ⟨x, q, rfl, _⟩ := pathTrees_cons hp
    rfl

theorem nextBrace_skip {ts us r : List RTree} (h : NoBody ts) : nextBrace (ts ++ .group .brace us :: r) = some (us, r) := by
  induction ts with
  | nil => rfl
  | cons t ts ih =>
    have ih := ih ⟨fun hm => h.1 (List.mem_cons_of_mem _ hm), fun us hm => h.2 us (List.mem_cons_of_mem _ hm)⟩
    rw [List.cons_append, nextBrace]
    · exact ih
    · rintro us rfl
      exact h.2 us (List.mem_cons_self ..)
    · rintro rfl
      exact h.1 (List.mem_cons_self ..)

theorem nextBrace_where {ws us r : List RTree} (h : WhereTrees ws) : nextBrace (ws ++ .group .brace us :: r) = some (us, r) := by
  cases h with
  | none => rfl
  | some h =>
    exact nextBrace_skip (ts := id' _ :: _) ⟨fun hm => h.1 (by simpa using hm), fun us hm => h.2 us (by simpa using hm)⟩

theorem endType_where {ws us r : List RTree} (h : WhereTrees ws) : endType (ws ++ .group .brace us :: r) = true := by
  cases h <;> rfl

theorem outputAt_read {out : Option Ty} {os ws us r : List RTree} (ho : OutTrees out os) (hw : WhereTrees ws) :
    outputAt (os ++ (ws ++ .group .brace us :: r)) = some (out, ws ++ .group .brace us :: r) := by
  cases ho with
  | none => cases hw <;> rfl
  | some h =>
    rw [List.cons_append, outputAt, typeAt_some h (endType_where hw) _ (by simp; omega)]
    rfl

theorem fnAt_read {name : Str} {attrs : List Attr} {out : Option Ty} {stmts : List Stmt} {gs ps os ws body rest : List RTree} (hn : Name name)
    (hg : Generics gs) (ho : OutTrees out os) (hw : WhereTrees ws) (hs : StmtsTrees stmts body) :
    fnAt attrs (id' name :: (gs ++ .group .paren ps :: (os ++ (ws ++ .group .brace body :: rest)))) = some (⟨name, attrs, out, stmts⟩, rest) := by
  rw [fnAt, if_neg (by rw [hn.keyword]; decide), skipGenerics_some hg (fun _ => rfl)]
  show fnRest attrs name _ = _
  rw [fnRest, outputAt_read ho hw]
  show (match nextBrace (ws ++ .group .brace body :: rest) with
    | none => none
    | some (body, r) => (stmtsAt body.length body).map (fun stmts => (ImplFn.mk name attrs out stmts, r))) = _
  rw [nextBrace_where hw]
  show (stmtsAt body.length body).map _ = _
  rw [stmtsAt_read hs _ (Nat.le_refl _)]
  rfl

theorem skipQualifiers_read {qs r : List RTree} (h : Quals qs) : skipQualifiers (qs ++ id' (str% "fn") :: r) = id' (str% "fn") :: r := by
  induction h with
  | nil => rfl
  | @cons k ts hk _ ih =>
    rw [List.cons_append, skipQualifiers, if_pos (by rcases hk with rfl | rfl | rfl | rfl <;> decide), ih]

theorem quals_start {qs r : List RTree} (h : Quals qs) : ∃ k q, qs ++ id' (str% "fn") :: r = id' k :: q ∧ k ≠ str% "pub" := by
  cases h with
  | nil => exact ⟨_, _, rfl, by decide⟩
  | cons hk _ => exact ⟨_, _, rfl, by rcases hk with rfl | rfl | rfl | rfl <;> decide⟩

theorem implItem_fn {name : Str} {attrs : List Attr} {out : Option Ty} {stmts : List Stmt} {qs gs ps os ws body rest : List RTree} (hn : Name name)
    (hq : Quals qs) (hg : Generics gs) (ho : OutTrees out os) (hw : WhereTrees ws) (hs : StmtsTrees stmts body) :
    implItem attrs (qs ++ id' (str% "fn") :: id' name :: (gs ++ .group .paren ps :: (os ++ (ws ++ .group .brace body :: rest)))) =
      some (.fn ⟨name, attrs, out, stmts⟩, rest) := by
  rw [implItem, skipQualifiers_read hq]
  show (fnAt attrs _).map _ = _
  rw [fnAt_read hn hg ho hw hs]
  rfl

theorem implItem_const {name : Str} {attrs : List Attr} {ts rest : List RTree} (hn : Name name) (hd : name ≠ str% "default") (h : NoSemi ts) :
    implItem attrs (id' (str% "const") :: id' name :: (ts ++ sy .semi :: rest)) = some (.other, rest) := by
  have h1 : skipQualifiers (id' (str% "const") :: id' name :: (ts ++ sy .semi :: rest)) = id' name :: (ts ++ sy .semi :: rest) := by
    rw [skipQualifiers, if_pos (by decide), skipQualifiers, if_neg]
    simp only [List.mem_cons, List.not_mem_nil, or_false]
    rintro (h | h | h | h)
    · exact hd h
    · exact reserved_ne hn (by decide) h
    · exact reserved_ne hn (by decide) h
    · exact reserved_ne hn (by decide) h
  have h2 : afterSemi (id' (str% "const") :: id' name :: (ts ++ sy .semi :: rest)) = some rest := afterSemi_read (ts := id' (str% "const") :: id' name :: ts)
    (by unfold NoSemi; simp only [List.mem_cons, not_or]; exact ⟨(by intro h; cases h), (by intro h; cases h), h⟩)
  rw [implItem, h1]
  show (if _ then _ else if _ then _ else _) = _
  rw [if_neg (reserved_ne hn (by decide)), if_pos (.inl rfl), h2]
  rfl

theorem implItem_type {attrs : List Attr} {ts rest : List RTree} (h : NoSemi ts) :
    implItem attrs (id' (str% "type") :: (ts ++ sy .semi :: rest)) = some (.other, rest) := by
  have h2 : afterSemi (id' (str% "type") :: (ts ++ sy .semi :: rest)) = some rest := afterSemi_read (ts := id' (str% "type") :: ts)
    (by unfold NoSemi; simp only [List.mem_cons, not_or]; exact ⟨(by intro h; cases h), h⟩)
  show (afterSemi _).map _ = _
  rw [h2]
  rfl

/-- One member and the ones after it. -/
theorem implItems_one {i : ImplItem} {l : List ImplItem} {attrs : List Attr} {at' vis r us : List RTree} {k : Str} {n : Nat} (ha : AttrTrees attrs at')
    (hv : Vis vis) (hk : k ≠ str% "pub") (hi : implItem attrs (id' k :: r) = some (i, us)) (hl : implItems n us = some l) :
    implItems (n + 1) (at' ++ (vis ++ id' k :: r)) = some (i :: l) := by
  have h1 := attrsAt_read (rest := vis ++ id' k :: r) ha (endAttrs_vis hv)
  have h2 := skipVis_read (r := r) hv hk
  generalize hX : at' ++ (vis ++ id' k :: r) = X at h1
  cases X with
  | nil => simp at hX
  | cons x X =>
    rw [implItems, h1]
    show (match implItem attrs (skipVis _) with
      | none => none
      | some (i, r) => (implItems n r).map (fun l => i :: l)) = _
    rw [h2, hi]
    show (implItems n us).map _ = _
    rw [hl]
    rfl

theorem implItems_read {its : List ImplItem} {us : List RTree} (h : MembersTrees its us) : ∀ n, us.length ≤ n → implItems n us = some its := by
  induction h with
  | nil => intro n _; cases n <;> rfl
  | @fn f l ts us hf _ ih =>
    intro n hn
    have hl := fnTrees_length hf
    obtain ⟨m, rfl⟩ : ∃ m, n = m + 1 := ⟨n - 1, by simp only [List.length_append] at hn; omega⟩
    have hi := ih m (by simp only [List.length_append] at hn; omega)
    cases hf with
    | @mk name attrs out stmts at' vis qs gs ps os ws body hname ha hv hq hg ho hw hs =>
      have e1 : at' ++ vis ++ qs ++ id' (str% "fn") :: id' name :: (gs ++ .group .paren ps :: (os ++ ws ++ [.group .brace body])) ++ us =
          at' ++ (vis ++ (qs ++ id' (str% "fn") :: id' name :: (gs ++ .group .paren ps :: (os ++ (ws ++ .group .brace body :: us))))) := by
        simp
      have h4 := implItem_fn (attrs := attrs) (ps := ps) (rest := us) hname hq hg ho hw hs
      obtain ⟨k, q, h5, hk⟩ := quals_start (r := id' name :: (gs ++ .group .paren ps :: (os ++ (ws ++ .group .brace body :: us)))) hq
      rw [h5] at h4
      rw [e1, h5]
      exact implItems_one ha hv hk h4 hi
  | @other l ts us hf _ ih =>
    intro n hn
    have hl := otherTrees_length hf
    obtain ⟨m, rfl⟩ : ∃ m, n = m + 1 := ⟨n - 1, by simp only [List.length_append] at hn; omega⟩
    have hi := ih m (by simp only [List.length_append] at hn; omega)
    cases hf with
    | @const name attrs at' vis ts hname hd ha hv h =>
      have e1 : at' ++ vis ++ id' (str% "const") :: id' name :: (ts ++ [sy .semi]) ++ us =
          at' ++ (vis ++ id' (str% "const") :: (id' name :: (ts ++ sy .semi :: us))) := by simp
      rw [e1]
      exact implItems_one ha hv (by decide) (implItem_const hname hd h) hi
    | @type attrs at' vis ts ha hv h =>
      have e1 : at' ++ vis ++ id' (str% "type") :: (ts ++ [sy .semi]) ++ us = at' ++ (vis ++ id' (str% "type") :: (ts ++ sy .semi :: us)) := by simp
      rw [e1]
      exact implItems_one ha hv (by decide) (implItem_type h) hi

/-- No inner attribute follows. -/
def endInner : List RTree → Bool
  | .tok (.doc true _) :: _ => false
  | .tok (.sym .hash) :: .tok (.sym .bang) :: _ => false
  | _ => true

theorem skipInner_end {r : List RTree} (h : endInner r = true) : skipInner r = r := by
  rw [skipInner.eq_def]
  split
  · cases h
  · cases h
  · rfl

theorem skipInner_read {a r : List RTree} (ha : Inner a) (h : endInner r = true) : skipInner (a ++ r) = r := by
  induction ha with
  | nil => exact skipInner_end h
  | doc _ ih => rw [List.cons_append, skipInner, ih]
  | attr _ ih => rw [List.cons_append, List.cons_append, List.cons_append, skipInner, ih]

theorem endInner_attrs {l : List Attr} {ts vis r : List RTree} {k : Str} (h : AttrTrees l ts) (hv : Vis vis) :
    endInner (ts ++ (vis ++ id' k :: r)) = true := by
  cases h with
  | nil => cases hv <;> rfl
  | doc => rfl
  | value => rfl
  | attr => rfl

theorem endInner_members {its : List ImplItem} {us : List RTree} (h : MembersTrees its us) : endInner us = true := by
  cases h with
  | nil => rfl
  | fn hf _ =>
    cases hf with
    | @mk name _ _ _ at' vis qs gs ps os ws body _ ha hv hq =>
      obtain ⟨k, q, h5, _⟩ := quals_start (r := id' name :: (gs ++ .group .paren ps :: (os ++ ws ++ [.group .brace body]))) hq
      rw [List.append_assoc (at' ++ vis), h5, List.append_assoc, List.append_assoc]
      exact endInner_attrs ha hv
  | other hf _ =>
    cases hf with
    | const _ _ ha hv =>
      rw [List.append_assoc, List.append_assoc]
      exact endInner_attrs ha hv
    | type ha hv =>
      rw [List.append_assoc, List.append_assoc]
      exact endInner_attrs ha hv

theorem implTy_read {ty : Ty} {trs tys ws us rest : List RTree} (hr : TraitTrees trs) (ht : TypeTrees ty tys) (hw : WhereTrees ws) :
    implTy (trs ++ (tys ++ (ws ++ .group .brace us :: rest))) = some (ty, ws ++ .group .brace us :: rest) := by
  cases hr with
  | none =>
    rw [List.nil_append, implTy, typeAt_some ht (endType_where hw) _ (by simp; omega)]
    refine if_neg ?_
    cases hw with
    | none => exact fun h => absurd (show [] = str% "for" from h) (by decide)
    | some _ => exact fun h => absurd (show str% "where" = str% "for" from h) (by decide)
  | some hr =>
    rw [List.append_assoc, implTy, typeAt_some hr rfl _ (by simp; omega)]
    exact (if_pos rfl).trans (typeAt_some ht (endType_where hw) _ (by simp; omega))

theorem implAt_read {ty : Ty} {its : List ImplItem} {gs trs tys ws inner us rest : List RTree} (hg : Generics gs) (hr : TraitTrees trs)
    (ht : TypeTrees ty tys) (hw : WhereTrees ws) (hin : Inner inner) (hf : MembersTrees its us) :
    implAt (gs ++ (trs ++ (tys ++ (ws ++ .group .brace (inner ++ us) :: rest)))) = some (.impl ty its, rest) := by
  have hstart : endType (trs ++ (tys ++ (ws ++ .group .brace (inner ++ us) :: rest))) = true := by
    cases hr with
    | none => exact typeTrees_start ht _
    | some hr => rw [List.append_assoc]; exact typeTrees_start hr _
  rw [implAt, skipGenerics_some hg (fun _ => hstart)]
  show (match implTy _ with
    | none => none
    | some (ty, r) =>
      match nextBrace r with
      | none => none
      | some (body, r) => (implItems body.length (skipInner body)).map (fun items => (Item.impl ty items, r))) = _
  rw [implTy_read hr ht hw]
  show (match nextBrace (ws ++ .group .brace (inner ++ us) :: rest) with
    | none => none
    | some (body, r) => (implItems body.length (skipInner body)).map (fun items => (Item.impl ty items, r))) = _
  rw [nextBrace_where hw]
  show (implItems (inner ++ us).length (skipInner (inner ++ us))).map _ = _
  rw [skipInner_read hin (endInner_members hf), implItems_read hf _ (by simp)]
  rfl

/-! ### Constants and other items -/

theorem constOf_read {c : ConstDef} {us : List RTree} (h : ConstTrees c us) : constOf us = some c := by
  cases h with
  | @mk name attrs ty e at' vis tys val hn ha hv ht he =>
    rw [List.append_assoc, constOf, attrsAt_read ha (endAttrs_vis hv)]
    show (match skipVis _ with
      | .tok (.ident k) :: .tok (.ident name) :: .tok (.sym .colon) :: r => _
      | _ => none) = _
    rw [skipVis_read hv (by decide)]
    show (if _ then _ else _) = _
    rw [if_pos ⟨rfl, hn.keyword⟩, typeAt_some ht rfl _ (by simp; omega)]
    show (constValue _).map _ = _
    rw [constValue, exprAt_read he rfl]
    rfl

theorem afterBody_skip {ts r : List RTree} (h : NoBody ts) : afterBody (ts ++ r) = afterBody r := by
  induction ts with
  | nil => rfl
  | cons t ts ih =>
    have ih := ih ⟨fun hm => h.1 (List.mem_cons_of_mem _ hm), fun us hm => h.2 us (List.mem_cons_of_mem _ hm)⟩
    rw [List.cons_append, afterBody]
    · exact ih
    · rintro us rfl
      exact h.2 us (List.mem_cons_self ..)
    · rintro rfl
      exact h.1 (List.mem_cons_self ..)

theorem plainItem_name {name : Str} {r : List RTree} (hn : Name name) :
    plainItem name r = match pathAt some (r.length + 1) (id' name :: r) with
      | some (p, .tok (.sym .bang) :: r) => macroAt (p.getLast?.getD []) r
      | _ => none := by
  have h1 : name ≠ str% "const" := reserved_ne hn (by decide)
  have h2 : semiItem name = false := by
    rw [Bool.eq_false_iff]
    intro h
    have : name ∈ [str% "use", str% "type", str% "static"] := of_decide_eq_true h
    have hs : ∀ x ∈ [str% "use", str% "type", str% "static"], x ∈ reserved := by decide
    exact hn.2 (hs _ this)
  have h3 : bodyItem name = false := by
    rw [Bool.eq_false_iff]
    intro h
    have : name ∈ [str% "fn", str% "struct", str% "enum", str% "trait", str% "extern", str% "unsafe", str% "async"] := of_decide_eq_true h
    have hs : ∀ x ∈ [str% "fn", str% "struct", str% "enum", str% "trait", str% "extern", str% "unsafe", str% "async"], x ∈ reserved := by decide
    exact hn.2 (hs _ this)
  rw [plainItem, if_neg h1, if_neg (by rw [h2]; decide), if_neg (by rw [h3]; decide)]
  rfl

theorem plainItem_macro {name : Str} {us r : List RTree} (hn : Name name) :
    plainItem name (sy .bang :: .group .brace us :: r) = some (.macro name (constOf us), r) := by
  rw [plainItem_name hn, pathAt_end _ hn rfl rfl]
  rfl

/-- A path before the `!` of a macro call. -/
theorem pathAt_macro {p : List Str} {ts rest : List RTree} (h : PathTrees p ts) :
    ∀ n, ts.length ≤ n → pathAt some n (ts ++ sy .bang :: rest) = some (p, sy .bang :: rest) := by
  induction h with
  | one hx =>
    intro n hn
    obtain ⟨m, rfl⟩ : ∃ m, n = m + 1 := ⟨n - 1, by simp at hn; omega⟩
    exact pathAt_end m hx rfl rfl
  | @cons x p ts hx hp ih =>
    intro n hn
    obtain ⟨m, rfl⟩ : ∃ m, n = m + 1 := ⟨n - 1, by simp at hn; omega⟩
    rw [List.cons_append, List.cons_append, pathAt, if_neg (by rw [hx.keyword]; decide)]
    show (pathAt some m (ts ++ sy .bang :: rest)).map _ = _
    rw [ih m (by simp at hn; omega)]
    rfl

theorem bodyWords_ne {k : Str} (h : k ∈ bodyWords) : k ≠ str% "pub" := by
  rintro rfl
  exact absurd h (by decide)

/-- Every item begins with a word that is not `pub`. -/
theorem itemTrees_start {i : Item} {ts : List RTree} (h : ItemTrees i ts) : ∃ k r, ts = id' k :: r ∧ k ≠ str% "pub" := by
  cases h with
  | use hk _ => exact ⟨_, _, rfl, by rcases hk with rfl | rfl | rfl <;> decide⟩
  | struct hk _ => exact ⟨_, _, rfl, bodyWords_ne hk⟩
  | body hk _ => exact ⟨_, _, rfl, bodyWords_ne hk⟩
  | unsafeItem => exact ⟨_, _, rfl, by decide⟩
  | constant => exact ⟨_, _, rfl, by decide⟩
  | constFn => exact ⟨_, _, rfl, by decide⟩
  | impl hu => rcases hu with rfl | rfl <;> exact ⟨_, _, rfl, by decide⟩
  | mod => exact ⟨_, _, rfl, by decide⟩
  | decl => exact ⟨_, _, rfl, by decide⟩
  | const hn _ => exact ⟨_, _, rfl, reserved_ne hn (by decide)⟩
  | constAt hp =>
    obtain ⟨x, q, rfl, hx⟩ := pathTrees_cons hp
    exact ⟨_, _, rfl, reserved_ne hx (by decide)⟩
  | rules => exact ⟨_, _, rfl, by decide⟩

theorem endInner_items {l : List Item} {us : List RTree} (h : ItemsTrees l us) : endInner us = true := by
  cases h with
  | nil => rfl
  | cons ha hv hi _ =>
    obtain ⟨k, r, rfl, _⟩ := itemTrees_start hi
    rw [List.append_assoc, List.append_assoc]
    exact endInner_attrs ha hv

theorem itemsAt_nil (n : Nat) : itemsAt n [] = some [] := by cases n <;> rfl

theorem itemAt_plain {x : Str} {r : List RTree} {n : Nat} (h1 : x ≠ str% "impl") (h2 : ¬ (x = str% "unsafe" ∧ word r = str% "impl"))
    (h3 : x ≠ str% "mod") : itemAt (n + 1) (id' x :: r) = plainItem x r := by
  unfold itemAt
  exact (if_neg h1).trans ((if_neg h2).trans (if_neg h3))

theorem itemAt_name {name : Str} {r : List RTree} {n : Nat} (hn : Name name) : itemAt (n + 1) (id' name :: r) = plainItem name r :=
  itemAt_plain (reserved_ne hn (by decide)) (fun h => reserved_ne hn (by decide) h.1) (reserved_ne hn (by decide))

/-- One item is read, if the items of modules of weight below `N` are. -/
theorem itemAt_read {N : Nat} (H : ∀ {l : List Item} {us : List RTree}, ItemsTrees l us → ∀ n, wt us < N → wt us ≤ n → itemsAt n us = some l)
    {i : Item} {ts : List RTree} (h : ItemTrees i ts) (rest : List RTree) (n : Nat) (hN : wt ts ≤ N) (hn : wt ts ≤ n + 1) :
    itemAt n (ts ++ rest) = some (i, rest) := by
  have hw : 4 ≤ wt ts := by
    obtain ⟨k, r, rfl, _⟩ := itemTrees_start h
    simp only [wt, wtT]; omega
  obtain ⟨m, rfl⟩ : ∃ m, n = m + 1 := ⟨n - 1, by omega⟩
  cases h with
  | @use ts k hk h =>
    have := afterSemi_read (r := rest) h
    rw [List.cons_append, List.append_assoc, List.singleton_append]
    rcases hk with rfl | rfl | rfl <;> (show (afterSemi _).map _ = _; rw [this]; rfl)
  | @struct ts k hk h =>
    have := afterBody_skip (r := sy .semi :: rest) h
    rw [List.cons_append, List.append_assoc, List.singleton_append]
    simp only [bodyWords, List.mem_cons, List.not_mem_nil, or_false] at hk
    rcases hk with rfl | rfl | rfl | rfl | rfl | rfl <;> (show (afterBody _).map _ = _; rw [this]; rfl)
  | @body ts us k hk h =>
    have := afterBody_skip (r := .group .brace us :: rest) h
    rw [List.cons_append, List.append_assoc, List.singleton_append]
    simp only [bodyWords, List.mem_cons, List.not_mem_nil, or_false] at hk
    rcases hk with rfl | rfl | rfl | rfl | rfl | rfl <;> (show (afterBody _).map _ = _; rw [this]; rfl)
  | @unsafeItem ts us k hk h =>
    have := afterBody_skip (r := .group .brace us :: rest) h
    rw [List.cons_append, List.cons_append, List.append_assoc, List.singleton_append,
      itemAt_plain (x := str% "unsafe") (r := id' k :: (ts ++ .group .brace us :: rest)) (by decide) (fun h => hk h.2) (by decide)]
    show (afterBody (ts ++ .group .brace us :: rest)).map _ = _
    rw [this]
    rfl
  | @constant ts k hk h =>
    have := afterSemi_read (r := rest) h
    rw [List.cons_append, List.cons_append, List.append_assoc, List.singleton_append,
      itemAt_plain (by decide) (fun h => absurd h.1 (by decide)) (by decide), plainItem, if_pos rfl]
    have hk' : ¬ word (id' k :: (ts ++ sy .semi :: rest)) ∈ [str% "fn", str% "unsafe", str% "async", str% "extern"] := hk
    rw [if_neg hk']
    show (afterSemi (ts ++ sy .semi :: rest)).map _ = _
    rw [this]
    rfl
  | @constFn ts us k hk h =>
    have := afterBody_skip (r := .group .brace us :: rest) h
    rw [List.cons_append, List.cons_append, List.append_assoc, List.singleton_append,
      itemAt_plain (by decide) (fun h => absurd h.1 (by decide)) (by decide), plainItem, if_pos rfl]
    have hk' : word (id' k :: (ts ++ .group .brace us :: rest)) ∈ [str% "fn", str% "unsafe", str% "async", str% "extern"] := hk
    rw [if_pos hk']
    show (afterBody (ts ++ .group .brace us :: rest)).map _ = _
    rw [this]
    rfl
  | @impl ty its us' gs trs tys ws inner us hu hg hr ht hws hin hf =>
    have := implAt_read (rest := rest) hg hr ht hws hin hf
    have e : us' ++ id' (str% "impl") :: (gs ++ (trs ++ (tys ++ (ws ++ [.group .brace (inner ++ us)])))) ++ rest =
        us' ++ id' (str% "impl") :: (gs ++ (trs ++ (tys ++ (ws ++ .group .brace (inner ++ us) :: rest)))) := by simp
    rw [e]
    rcases hu with rfl | rfl
    · exact this
    · exact this
  | @mod name l inner us hn hi hl =>
    simp only [wt, wtT, wt_append] at hN hn
    show (itemsAt m (skipInner (inner ++ us))).map _ = _
    rw [skipInner_read hi (endInner_items hl), H hl m (by omega) (by omega)]
    rfl
  | decl => rfl
  | @const name c us hname hc =>
    rw [List.cons_append, itemAt_name hname]
    show plainItem name (sy .bang :: .group .brace us :: rest) = _
    rw [plainItem_macro hname, constOf_read hc]
  | @constAt p name c ts us d hp hd hc =>
    have h1 := pathAt_macro (rest := .group d us :: sy .semi :: rest) hp
    obtain ⟨x, q, rfl, hx⟩ := pathTrees_cons hp
    have e : id' x :: q ++ [sy .bang, .group d us, sy .semi] ++ rest = id' x :: (q ++ sy .bang :: .group d us :: sy .semi :: rest) := by simp
    rw [e, itemAt_name hx, plainItem_name hx, ← List.cons_append, h1 _ (by simp)]
    show macroAt ((p ++ [name]).getLast?.getD []) (.group d us :: sy .semi :: rest) = _
    rw [List.getLast?_concat]
    cases d with
    | brace => exact absurd rfl hd
    | paren => show some (Item.macro name (constOf us), rest) = _; rw [constOf_read hc]
    | bracket => show some (Item.macro name (constOf us), rest) = _; rw [constOf_read hc]
  | rules => rfl

theorem itemsAt_below (N : Nat) : ∀ {l : List Item} {us : List RTree}, ItemsTrees l us → ∀ n, wt us < N → wt us ≤ n → itemsAt n us = some l := by
  induction N with
  | zero => exact fun _ _ h => absurd h (Nat.not_lt_zero _)
  | succ N ih =>
    intro l us h
    -- the list of items is handled by induction on its length
    induction l generalizing us with
    | nil =>
      cases h
      exact fun n _ _ => itemsAt_nil n
    | cons i l ihl =>
      intro n hN hn
      cases h with
      | @cons attrs _ _ at' vis ts us ha hv hi hl =>
        obtain ⟨k, r, rfl, hk⟩ := itemTrees_start hi
        simp only [wt, wtT, wt_append] at hN hn
        obtain ⟨m, rfl⟩ : ∃ m, n = m + 1 := ⟨n - 1, by omega⟩
        have h1 := attrsAt_read (rest := vis ++ id' k :: (r ++ us)) ha (endAttrs_vis hv)
        have h2 := skipVis_read (r := r ++ us) hv hk
        have h3 := itemAt_read ih hi us m (by simp only [wt, wtT]; omega) (by simp only [wt, wtT]; omega)
        have h4 := ihl hl m (by omega) (by omega)
        have e1 : at' ++ vis ++ id' k :: r ++ us = at' ++ (vis ++ id' k :: (r ++ us)) := by simp
        rw [e1]
        generalize hX : at' ++ (vis ++ id' k :: (r ++ us)) = X at h1
        cases X with
        | nil => simp at hX
        | cons x X =>
          rw [itemsAt, h1]
          show (match itemAt m (skipVis _) with
            | none => none
            | some (i, r) => (itemsAt m r).map (fun l => i :: l)) = _
          rw [h2, ← List.cons_append, h3]
          show (itemsAt m us).map _ = _
          rw [h4]
          rfl

/-- Every text of a file is read as its items. -/
theorem readItems_fileText {items : List Item} {s : Str} (h : FileText items s) : readItems s = some items := by
  obtain ⟨inner, ts, hi, ht, hp, hl⟩ := h
  rw [readItems, lex_layout hl]
  show (match trees (toksOf (inner ++ ts)) with
    | none => none
    | some ts => itemsAt (treesFuel ts) (skipInner ts)) = _
  rw [trees_toksOf hp]
  show itemsAt _ _ = _
  rw [skipInner_read hi (endInner_items ht), treesFuel_wt]
  exact itemsAt_below (wt ts + 1) ht _ (by omega) (by rw [wt_append]; omega)

/-- Every text of a file is read as its items. -/
theorem rustSyn_fileText {items : List Item} {s : Str} (h : FileText items s) : rustSyn s = .ok items := by
  rw [rustSyn, readItems_fileText h]

end Swc
