/-
C89: the web site, from the requests as they arrive to the answers.
-/
import Verif.Spec.Site
import Verif.Lemmas.Blame
import Verif.Props.ReportPage
import Verif.Props.BranchList
import Verif.Props.Startup
import Verif.Props.CommandLine

namespace Swc

open Spec

/-! ### Addresses -/

theorem hexByte_iff {b : UInt8} {x : Nat} : hexByte b = some x ↔ HexOf x b := by
  unfold hexByte HexOf
  dsimp only
  split_ifs <;> constructor <;> intro h <;> first
    | (injection h with h; omega)
    | (cases h; done)
    | (congr 1; omega)

theorem hexOf_lt {x : Nat} {b : UInt8} (h : HexOf x b) : x < 16 := by
  rcases h with h | h <;> omega

theorem requote_cons_ne {c : UInt8} (h : c ≠ 0x25) (l : Bytes) : requote (c :: l) = c :: requote l := by
  rw [requote]
  rintro a b l rfl
  exact absurd rfl h

/-- What is written decodes to what is meant. -/
theorem requote_writes {s a : Bytes} (h : WritesPath s a) (b : Bytes) : requote (a ++ b) = s ++ requote b := by
  induction h with
  | nil => rfl
  | plain hb _ ih => rw [List.cons_append, requote_cons_ne hb, ih]; rfl
  | @hex b' hi lo s t hh hl h1 h2 h3 _ ih =>
    have e : UInt8.ofNat (b'.toNat / 16 * 16 + b'.toNat % 16) = b' := by
      rw [show b'.toNat / 16 * 16 + b'.toNat % 16 = b'.toNat by omega]
      simp
    show requote (0x25 :: hi :: lo :: (t ++ b)) = _
    rw [requote, hexByte_iff.2 hh, hexByte_iff.2 hl]
    dsimp only
    rw [e, if_neg (by simp [h1, h2, h3]), ih]
    rfl

theorem writes_of_requote {s : Bytes} (hs : (0x25 : UInt8) ∉ s) {p t : Bytes} (h : requote p = s ++ t) :
    ∃ a b, p = a ++ b ∧ WritesPath s a ∧ requote b = t := by
  induction s generalizing p with
  | nil => exact ⟨[], p, rfl, .nil, h⟩
  | cons c s ih =>
    have hc : c ≠ 0x25 := fun e => hs (e ▸ List.mem_cons_self)
    have hs' : (0x25 : UInt8) ∉ s := fun e => hs (List.mem_cons_of_mem _ e)
    cases p with
    | nil => rw [requote] at h; cases h
    | cons x p =>
      by_cases hx : x = 0x25
      · subst hx
        match p, h with
        | [], h => rw [requote.eq_2 _ _ (by simp)] at h; exact absurd (List.cons.inj h).1.symm hc
        | [a], h => rw [requote.eq_2 _ _ (by simp)] at h; exact absurd (List.cons.inj h).1.symm hc
        | a :: b :: l, h =>
          rw [requote] at h
          cases ha : hexByte a with
          | none => rw [ha] at h; exact absurd (List.cons.inj h).1.symm hc
          | some v =>
            cases hb : hexByte b with
            | none => rw [ha, hb] at h; exact absurd (List.cons.inj h).1.symm hc
            | some w =>
              rw [ha, hb] at h
              dsimp only at h
              split at h
              · exact absurd (List.cons.inj h).1.symm hc
              · rename_i hne
                obtain ⟨e, h⟩ := List.cons.inj h
                obtain ⟨a', b', rfl, hw, hr⟩ := ih hs' h
                have h1 := hexOf_lt (hexByte_iff.1 ha)
                have h2 := hexOf_lt (hexByte_iff.1 hb)
                have hn : c.toNat = v * 16 + w := by
                  rw [← e, UInt8.toNat_ofNat']
                  omega
                rw [e] at hne
                refine ⟨0x25 :: a :: b :: a', b', rfl, .hex ?_ ?_ (fun e => hne (.inl e)) (fun e => hne (.inr (.inl e))) (fun e => hne (.inr (.inr e))) hw, hr⟩
                · rw [hn, show (v * 16 + w) / 16 = v by omega]; exact hexByte_iff.1 ha
                · rw [hn, show (v * 16 + w) % 16 = w by omega]; exact hexByte_iff.1 hb
      · rw [requote_cons_ne hx] at h
        obtain ⟨e, h2⟩ := List.cons.inj h
        subst e
        obtain ⟨a', b', rfl, hw, hr⟩ := ih hs' h2
        exact ⟨x :: a', b', rfl, .plain hx hw, hr⟩

theorem requote_nil {p : Bytes} (h : requote p = []) : p = [] := by
  cases p with
  | nil => rfl
  | cons x p =>
    by_cases hx : x = 0x25
    · subst hx
      match p, h with
      | [], h => rw [requote.eq_2 _ _ (by simp)] at h; cases h
      | [a], h => rw [requote.eq_2 _ _ (by simp)] at h; cases h
      | a :: b :: l, h =>
        rw [requote] at h
        split at h
        · dsimp only at h
          split at h <;> cases h
        · cases h
    · rw [requote_cons_ne hx] at h; cases h

/-- An address is written exactly by what decodes to it. -/
theorem writes_iff {s : Bytes} (hs : (0x25 : UInt8) ∉ s) (p : Bytes) : requote p = s ↔ WritesPath s p := by
  constructor
  · intro h
    obtain ⟨a, b, rfl, hw, hb⟩ := writes_of_requote hs (t := []) (by rw [h, List.append_nil])
    rw [requote_nil hb, List.append_nil]
    exact hw
  · intro h
    have := requote_writes h []
    rw [List.append_nil] at this
    rw [this, show requote [] = [] by rw [requote], List.append_nil]

/-- A slash is only written as itself. -/
theorem requote_slash {p t : Bytes} (h : requote p = 0x2F :: t) : ∃ q, p = 0x2F :: q := by
  obtain ⟨a, b, rfl, hw, -⟩ := writes_of_requote (s := [0x2F]) (by decide) (t := t) h
  cases hw with
  | plain _ h => exact ⟨_, rfl⟩
  | hex _ _ _ h2 => exact absurd rfl h2

theorem staticTail_iff (r : HttpRequest) : (∃ t, staticTail (requote r.path) = some t) ↔ BelowStatic r := by
  unfold staticTail BelowStatic
  dsimp only
  constructor
  · rintro ⟨t, h⟩
    split at h
    · rename_i hc
      have e : requote r.path = utf8 (str% "/static") ++ (requote r.path).drop (utf8 (str% "/static")).length := by
        conv_lhs => rw [← List.take_append_drop (utf8 (str% "/static")).length (requote r.path), hc.1]
      obtain ⟨a, b, hp, hw, hb⟩ := writes_of_requote (by decide) e
      refine ⟨a, b, hp, hw, ?_⟩
      cases hd : (requote r.path).drop (utf8 (str% "/static")).length with
      | nil => rw [hd] at hb; exact .inl (requote_nil hb)
      | cons x d =>
        rw [hd] at hb hc
        obtain rfl : x = 0x2F := hc.2
        exact .inr (requote_slash hb)
    · cases h
  · rintro ⟨a, b, hp, hw, hb⟩
    rw [hp, requote_writes hw]
    refine ⟨requote b, ?_⟩
    rw [List.take_left, List.drop_left, if_pos]
    refine ⟨rfl, ?_⟩
    rcases hb with rfl | ⟨c, rfl⟩
    · rw [requote]; rfl
    · rw [requote_cons_ne (by decide)]; rfl

theorem route_get {r : HttpRequest} {h : Handler} (hr : route r = some h) :
    (∃ t, h = .files t ∧ staticTail (requote r.path) = some t) ∨
      r.method = str% "GET" ∧ ∃ a, (a, h) ∈ routes ∧ requote r.path = utf8 a := by
  unfold route at hr
  cases hs : staticTail (requote r.path) with
  | some t => rw [hs] at hr; cases hr; exact .inl ⟨t, rfl, rfl⟩
  | none =>
    rw [hs] at hr
    dsimp only at hr
    split at hr
    · rename_i hm
      cases hf : routes.find? fun p => utf8 p.1 = requote r.path with
      | none => rw [hf] at hr; cases hr
      | some p =>
        rw [hf] at hr
        cases hr
        have := List.find?_some hf
        exact .inr ⟨hm, p.1, List.mem_of_find?_eq_some hf, (of_decide_eq_true this).symm⟩
    · cases hr

/-- C89: what is below `/static`, and nothing else, is answered from the directory of files. -/
theorem C89_static (r : HttpRequest) : (∃ t, route r = some (.files t)) ↔ BelowStatic r := by
  rw [← staticTail_iff]
  constructor
  · rintro ⟨t, h⟩
    rcases route_get h with ⟨t', _, h⟩ | ⟨_, a, h, _⟩
    · exact ⟨t', h⟩
    · simp [routes] at h
  · rintro ⟨t, h⟩
    exact ⟨t, by unfold route; rw [h]⟩

/-- C89: every page is behind its address, in every spelling, for reading only, and behind no other. -/
theorem C89_route (r : HttpRequest) {h : Handler} {a : Str} (ha : address h = some a) : route r = some h ↔ Requests r a := by
  have hn : (0x25 : UInt8) ∉ utf8 a := by
    cases h <;> simp only [address, Option.some.injEq, reduceCtorEq] at ha <;> subst ha <;> decide
  unfold Requests
  rw [← writes_iff hn]
  constructor
  · intro hr
    rcases route_get hr with ⟨t, rfl, _⟩ | ⟨hm, b, hb, hp⟩
    · cases ha
    · refine ⟨hm, hp.trans ?_⟩
      simp only [routes, List.mem_cons, Prod.mk.injEq, List.not_mem_nil, or_false] at hb
      rcases hb with ⟨rfl, rfl⟩ | ⟨rfl, rfl⟩ | ⟨rfl, rfl⟩ | ⟨rfl, rfl⟩ | ⟨rfl, rfl⟩ | ⟨rfl, rfl⟩ | ⟨rfl, rfl⟩ <;> cases ha <;> rfl
  · rintro ⟨hm, hp⟩
    unfold route
    rw [hp, if_pos hm]
    cases h <;> simp only [address, Option.some.injEq, reduceCtorEq] at ha <;> subst ha <;> decide +kernel

/-- C89: everything else leads nowhere. -/
theorem C89_nowhere (r : HttpRequest) : route r = none ↔ ¬ BelowStatic r ∧ ∀ h a, address h = some a → ¬ Requests r a := by
  constructor
  · intro hr
    refine ⟨fun hb => ?_, fun h a ha hq => ?_⟩
    · obtain ⟨t, ht⟩ := (C89_static r).2 hb
      rw [hr] at ht; cases ht
    · have := (C89_route r ha).2 hq
      rw [hr] at this; cases this
  · rintro ⟨h1, h2⟩
    cases hr : route r with
    | none => rfl
    | some h =>
      exfalso
      cases ha : address h with
      | some a => exact h2 h a ha ((C89_route r ha).1 hr)
      | none => cases h <;> first | exact h1 ((C89_static r).1 ⟨_, hr⟩) | cases ha

/-! ### One request among others -/

/-- The entries of the log that end the request number `id`. -/
def ends {σ : Type} (id : Nat) : Entry σ → Bool
  | .computed .. => false
  | .answered i .. => i = id
  | .died i => i = id
  | .listed i .. => i = id

/-- What ends the request number `id`, if anything. -/
def own {σ : Type} (id : Nat) (log : List (Entry σ)) : List (Entry σ) := log.filter (ends id)

theorem mem_own {σ : Type} {id : Nat} {log : List (Entry σ)} {e : Entry σ} (h : e ∈ log) (he : ends id e = true) : e ∈ own id log :=
  List.mem_filter.2 ⟨h, he⟩

/-- The rest of a request for branches, after fetching. -/
def listP : Prog (List (Str × Str)) :=
  gitP [str% "ls-remote", str% "--tags", str% "--heads"] >>= fun out => Prog.done (expectListed out) >>= fun stdout => .done (parseBranches stdout)

/-- What is known of the outcome of a request for branches. -/
def Outcome (W : World) (srv : Server) (c : Config W.State) (id : Nat) (repo : Str) (fetch : Bool) : Res (List (Str × Str)) → Prop
  | .ok v => srv.repos repo ≠ none ∧ FreshList W srv c id repo fetch v
  | .err m => (srv.repos repo = none ∧ m = str% "Unknown repo '" ++ repo ++ str% "'") ∨ (srv.repos repo ≠ none ∧ ListingFails W srv c id repo fetch m)
  | .panic => srv.repos repo ≠ none ∧ ListingCrashes W srv c id repo fetch
  | .diverge => False

/-- What is known of a request for branches that holds the shard. -/
inductive Listing (W : World) (srv : Server) (c : Config W.State) (id : Nat) (repo : Str) (fetch : Bool) : Prog (List (Str × Str)) → Prop
  | begun (hk : srv.repos repo ≠ none) (hf : fetch = true) : Listing W srv c id repo fetch (fetchP true >>= fun _ => listP)
  | fetched (hk : srv.repos repo ≠ none) (hf : FetchedFor W srv c id repo fetch) : Listing W srv c id repo fetch listP
  | done {r} (h : Outcome W srv c id repo fetch r) : Listing W srv c id repo fetch (.done r)

/-- What is known of a request. -/
inductive Doing (W : World) (srv : Server) (c : Config W.State) (id : Nat) : Request → Pc W.State → List (Entry W.State) → Prop
  | scan (a : CompareArgs) (i : Nat) : Doing W srv c id (.compare a) (.scan (some a) i) []
  | scanBoth (a : CompareArgs) (i : Nat) : Doing W srv c id (.compare a) (.scanBoth (some a) i) []
  | lookup (a : CompareArgs) : Doing W srv c id (.compare a) (.lookup a) []
  | looking (a : CompareArgs) : Doing W srv c id (.compare a) (.looking a) []
  | wantMutex {a : CompareArgs} (h : srv.repos a.repo ≠ none) : Doing W srv c id (.compare a) (.wantMutex a) []
  | check {a : CompareArgs} (h : srv.repos a.repo ≠ none) : Doing W srv c id (.compare a) (.check a) []
  | wantShard {a : CompareArgs} (h : srv.repos a.repo ≠ none) : Doing W srv c id (.compare a) (.wantShard a) []
  | running {a : CompareArgs} (h : srv.repos a.repo ≠ none) (ho st p) : Doing W srv c id (.compare a) (.running a ho st p) []
  | store {a : CompareArgs} (h : srv.repos a.repo ≠ none) (ho st fi r) : Doing W srv c id (.compare a) (.store a ho st fi r) []
  | answered {a : CompareArgs} (x cached t)
      (h : srv.repos a.repo = none → x = .error (str% "Unknown repo organization '" ++ a.repo ++ str% "'")) :
      Doing W srv c id (.compare a) .finished [.answered id a x cached t]
  | compareDied (a : CompareArgs) (h : srv.repos a.repo ≠ none) (hd : DiedOf c.sh.log id a) : Doing W srv c id (.compare a) .finished [.died id]
  | branchWant (r f) : Doing W srv c id (.branches r f) (.branchWant r f) []
  | branching {r f p} (h : Listing W srv c id r f p) : Doing W srv c id (.branches r f) (.branching r p) []
  | listed {r f v} (h : Outcome W srv c id r f (.ok v)) : Doing W srv c id (.branches r f) .finished [.listed id r (.ok v)]
  | unlisted {r f m} (h : Outcome W srv c id r f (.err m)) : Doing W srv c id (.branches r f) .finished [.listed id r (.error m)]
  | branchDied {r f} (h : Outcome W srv c id r f .panic) : Doing W srv c id (.branches r f) .finished [.died id]
  | scanList (i : Nat) : Doing W srv c id .list (.scan none i) []
  | scanListBoth (i : Nat) : Doing W srv c id .list (.scanBoth none i) []
  | shown : Doing W srv c id .list .finished []

theorem Spec.FetchedFor.later {W : World} {srv : Server} {c c' : Config W.State} {id : Nat} {r : Str} {f : Bool}
    (h : FetchedFor W srv c id r f) (hl : Later W srv c c') : FetchedFor W srv c' id r f := fun hf => by
  obtain ⟨c1, c2, o, e, u, h1, h2⟩ := h hf
  exact ⟨c1, c2, o, e, u, h1, later_trans h2 hl⟩

theorem Outcome.later {W : World} {srv : Server} {c c' : Config W.State} {id : Nat} {r : Str} {f : Bool} {x : Res (List (Str × Str))}
    (h : Outcome W srv c id r f x) (hl : Later W srv c c') : Outcome W srv c' id r f x := by
  cases x with
  | ok v =>
    obtain ⟨hk, c1, c2, o, e, u, h1, h2, h3⟩ := h
    exact ⟨hk, c1, c2, o, e, u, h1, later_trans h2 hl, h3⟩
  | err m =>
    rcases h with h | ⟨hk, c1, c2, e, h1, h2⟩
    · exact .inl h
    · exact .inr ⟨hk, c1, c2, e, later_trans h1 hl, h2⟩
  | panic =>
    obtain ⟨hk, c1, c2, o, e, h1, h2⟩ := h
    exact ⟨hk, c1, c2, o, e, later_trans h1 hl, h2⟩
  | diverge => exact h

theorem Doing.later {W : World} {srv : Server} {c c' : Config W.State} {id : Nat} {req : Request} {pc : Pc W.State} {es : List (Entry W.State)}
    (h : Doing W srv c id req pc es) (hl : Later W srv c c') : Doing W srv c' id req pc es := by
  cases h with
  | branching h =>
    refine .branching ?_
    cases h with
    | begun hk hf => exact .begun hk hf
    | fetched hk hf => exact .fetched hk (hf.later hl)
    | done h => exact .done (h.later hl)
  | listed h => exact .listed (h.later hl)
  | unlisted h => exact .unlisted (h.later hl)
  | branchDied h => exact .branchDied (h.later hl)
  | compareDied a h hd =>
    obtain ⟨es, e⟩ := log_later hl
    exact .compareDied a h (e ▸ diedOf_append hd)
  | answered x b t h => exact .answered x b t h
  | _ => constructor <;> assumption

theorem listing_begin {W : World} {srv : Server} {c : Config W.State} {id : Nat} (r : Str) (f : Bool) : Listing W srv c id r f (branchesP srv r f) := by
  unfold branchesP
  split
  · rename_i h
    exact .done (.inl ⟨h, rfl⟩)
  · rename_i h
    have hk : srv.repos r ≠ none := by rw [h]; exact fun h => nomatch h
    cases f with
    | true => exact .begun hk rfl
    | false => exact .fetched hk fun h => nomatch h

theorem listing_step {W : World} {srv : Server} {c c' : Config W.State} (hR : Reachable W srv c) {id : Nat} (ht : ThreadStep W srv id c c')
    {r : Str} {f : Bool} {p p' : Prog (List (Str × Str))} (hpc : c.threads[id]? = some (.branching r p)) (h : Listing W srv c id r f p)
    (hs : p.step W (c.sh.repo r) = some (p', c'.sh.repo r)) : Listing W srv c' id r f p' := by
  have runs : ∀ args out, (∃ rest, p = .git args rest) → W.git (c.sh.repo r) args = (out, c'.sh.repo r) → RunsGit W srv id r args out c c' :=
    fun _ _ ⟨rest, hp⟩ h => ⟨hR, ht, ⟨rest, hp ▸ hpc⟩, h⟩
  cases h with
  | done h => cases hs
  | begun hk hf =>
    have hs : some ((Prog.done (expectFetched (W.git (c.sh.repo r) fetchAll).1)).andThen (fun _ => listP), (W.git (c.sh.repo r) fetchAll).2) =
      some (p', c'.sh.repo r) := hs
    generalize hg : W.git (c.sh.repo r) fetchAll = g at hs
    obtain ⟨o, s'⟩ := g
    obtain rfl : s' = c'.sh.repo r := (Prod.mk.inj (Option.some.inj hs)).2
    have hp := (Prod.mk.inj (Option.some.inj hs)).1
    have hr := runs _ _ ⟨_, rfl⟩ hg
    cases o with
    | spawnFailed e => subst hp; exact .done (.inr ⟨hk, c, c', e, .refl, .inl ⟨hf, rfl, .inl hr⟩⟩)
    | exited ok stdout stderr utf8 =>
      cases ok with
      | false =>
        cases utf8 with
        | true => subst hp; exact .done (.inr ⟨hk, c, c', stderr, .refl, .inl ⟨hf, rfl, .inr ⟨_, hr⟩⟩⟩)
        | false => subst hp; exact .done ⟨hk, c, c', _, _, .refl, .inl ⟨hf, hr⟩⟩
      | true => subst hp; exact .fetched hk fun _ => ⟨c, c', _, _, _, hr, .refl⟩
  | fetched hk hf =>
    have hs : some ((Prog.done (expectListed (W.git (c.sh.repo r) printRefs).1)).andThen (fun stdout => .done (parseBranches stdout)),
      (W.git (c.sh.repo r) printRefs).2) = some (p', c'.sh.repo r) := hs
    generalize hg : W.git (c.sh.repo r) printRefs = g at hs
    obtain ⟨o, s'⟩ := g
    obtain rfl : s' = c'.sh.repo r := (Prod.mk.inj (Option.some.inj hs)).2
    have hp := (Prod.mk.inj (Option.some.inj hs)).1
    have hr := runs _ _ ⟨_, rfl⟩ hg
    cases o with
    | spawnFailed e => subst hp; exact .done (.inr ⟨hk, c, c', e, .refl, .inr ⟨hf, .inl ⟨rfl, hr⟩⟩⟩)
    | exited ok stdout stderr utf8 =>
      cases ok with
      | false =>
        cases utf8 with
        | true => subst hp; exact .done (.inr ⟨hk, c, c', stderr, .refl, .inr ⟨hf, .inr ⟨rfl, _, hr⟩⟩⟩)
        | false => subst hp; exact .done ⟨hk, c, c', _, _, .refl, .inr ⟨hf, .inl hr⟩⟩
      | true =>
        have hp : Prog.done (parseBranches stdout) = p' := hp
        subst hp
        refine .done ?_
        have hh := parseBranches_halts stdout
        have hb := (C62_panics_iff stdout).2
        cases hp : parseBranches stdout with
        | ok v => exact ⟨hk, c, c', _, _, _, hr, .refl, ((C62_exact _).1 _).1 hp, hf⟩
        | err m =>
          rw [hp] at hb
          obtain ⟨_, h⟩ := hb fun h => nomatch h
          cases h
        | panic => exact ⟨hk, c, c', _, _, .refl, .inr ⟨hf, .inr ⟨_, hr, (C62_exact _).2.1 hp⟩⟩⟩
        | diverge => exact hh hp

theorem doing_step {W : World} {srv : Server} {c c' : Config W.State} (hR : Reachable W srv c) {id : Nat}
    {req : Request} {pc pc' : Pc W.State} {s' : Shared W.State} (hpc : c.threads[id]? = some pc) (h : Act1 W srv id pc c.sh pc' s')
    (hc' : c' = ⟨c.threads.set id pc', s'⟩)
    (hd : Doing W srv c id req pc (own id c.sh.log)) : Doing W srv c' id req pc' (own id s'.log) := by
  have ht : ThreadStep W srv id c c' := ⟨pc, pc', s', hpc, h, hc'⟩
  have hl : Later W srv c c' := .step .refl (.thread id ht)
  have hsh' : c'.sh = s' := by rw [hc']
  generalize hsh : c.sh = sh at h
  rw [hsh] at hd
  generalize hes : own id sh.log = es at hd
  have hnote : ∀ l : List (Entry W.State), own id (sh.log ++ l) = es ++ l.filter (ends id) := fun l => by
    rw [← hes]; exact List.filter_append ..
  have hlog : ∀ b : Prop, [Decidable b] → ∀ k, own id (if b then sh else sh.dropRead k).log = es := fun b _ k => by
    split
    · exact hes
    · exact hes
  cases h with
  | scanTake hi h => cases hd <;> (refine Eq.mpr (congrArg (Doing W srv c' id _ _) hes) ?_; constructor)
  | scanDrop => cases hd <;> (rw [hlog]; constructor)
  | scanEnd hi => cases hd <;> (rw [hlog]; constructor)
  | lookup h => cases hd; refine Eq.mpr (congrArg (Doing W srv c' id _ _) hes) ?_; constructor
  | known h => cases hd; refine Eq.mpr (congrArg (Doing W srv c' id _ _) hes) ?_; exact .wantMutex h
  | unknown h =>
    cases hd
    refine Eq.mpr (congrArg (Doing W srv c' id _ _) (hnote _)) ?_
    simpa [ends] using Doing.answered _ _ _ fun _ => rfl
  | lock h hp => cases hd; refine Eq.mpr (congrArg (Doing W srv c' id _ _) hes) ?_; constructor; assumption
  | lockPoisoned h hp =>
    cases hd
    refine Eq.mpr (congrArg (Doing W srv c' id _ _) (hnote _)) ?_
    have hn : Entry.died id ∉ c.sh.log := fun h => by
      have := mem_own h (show ends id (Entry.died id) = true from decide_eq_true rfl)
      rw [hsh, hes] at this
      cases this
    simpa [ends] using Doing.compareDied _ (by assumption) (by
      rw [hsh']
      have := diedOf_poisoned hR (by rw [hsh]; exact hp) hn
      rw [hsh] at this
      exact this _)
  | hit h hf =>
    cases hd
    refine Eq.mpr (congrArg (Doing W srv c' id _ _) (hnote _)) ?_
    simpa [ends] using Doing.answered _ _ _ fun h => absurd h (by assumption)
  | expired h hf => cases hd; refine Eq.mpr (congrArg (Doing W srv c' id _ _) hes) ?_; constructor; assumption
  | miss h => cases hd; refine Eq.mpr (congrArg (Doing W srv c' id _ _) hes) ?_; constructor; assumption
  | permit ho h => cases hd; refine Eq.mpr (congrArg (Doing W srv c' id _ _) hes) ?_; constructor; assumption
  | work h => cases hd; refine Eq.mpr (congrArg (Doing W srv c' id _ _) hes) ?_; constructor; assumption
  | ended h => cases hd; refine Eq.mpr (congrArg (Doing W srv c' id _ _) hes) ?_; constructor; assumption
  | storeOk =>
    cases hd
    refine Eq.mpr (congrArg (Doing W srv c' id _ _) (hnote _)) ?_
    simpa [ends] using Doing.answered _ _ _ fun h => absurd h (by assumption)
  | storeErr =>
    cases hd
    refine Eq.mpr (congrArg (Doing W srv c' id _ _) (hnote _)) ?_
    simpa [ends] using Doing.answered _ _ _ fun h => absurd h (by assumption)
  | storePanic =>
    cases hd
    refine Eq.mpr (congrArg (Doing W srv c' id _ _) (hnote _)) ?_
    simpa [ends] using Doing.compareDied _ (by assumption) (by
      rw [hsh']
      exact ⟨sh.log, id, _, _, _, _, _, [], [], rfl, .inl ⟨rfl, rfl, rfl⟩⟩)
  | branchTake h =>
    cases hd
    refine Eq.mpr (congrArg (Doing W srv c' id _ _) hes) ?_
    exact .branching (listing_begin _ _)
  | branchWork h =>
    cases hd with
    | branching hp =>
      refine Eq.mpr (congrArg (Doing W srv c' id _ _) hes) ?_
      refine .branching (listing_step hR ht hpc hp ?_)
      rw [hsh, hsh', h]
      simp [updAt]
  | branchOk =>
    cases hd with
    | branching hp =>
      refine Eq.mpr (congrArg (Doing W srv c' id _ _) (hnote _)) ?_
      cases hp with
      | done hp => simpa [ends] using Doing.listed (hp.later hl)
  | branchErr =>
    cases hd with
    | branching hp =>
      refine Eq.mpr (congrArg (Doing W srv c' id _ _) (hnote _)) ?_
      cases hp with
      | done hp => simpa [ends] using Doing.unlisted (hp.later hl)
  | branchPanic =>
    cases hd with
    | branching hp =>
      refine Eq.mpr (congrArg (Doing W srv c' id _ _) (hnote _)) ?_
      cases hp with
      | done hp => simpa [ends] using Doing.branchDied (hp.later hl)

/-- The steps of a request leave the ends of the others alone. -/
theorem others_step {W : World} {srv : Server} {id j : Nat} (hne : j ≠ id) {pc pc' : Pc W.State} {s s' : Shared W.State}
    (h : Act1 W srv j pc s pc' s') : own id s'.log = own id s.log := by
  have hnote : ∀ (l : List (Entry W.State)), l.filter (ends id) = [] → own id (s.log ++ l) = own id s.log := fun l hl => by
    unfold own
    rw [List.filter_append, hl, List.append_nil]
  cases h with
  | scanDrop => split <;> rfl
  | scanEnd hi => split <;> rfl
  | unknown h => exact hnote _ (by simp [ends, hne])
  | lockPoisoned h hp => exact hnote _ (by simp [ends, hne])
  | hit h hf => exact hnote _ (by simp [ends, hne])
  | storeOk => exact hnote _ (by simp [ends, hne])
  | storeErr => exact hnote _ (by simp [ends, hne])
  | storePanic => exact hnote _ (by simp [ends, hne])
  | branchOk => exact hnote _ (by simp [ends, hne])
  | branchErr => exact hnote _ (by simp [ends, hne])
  | branchPanic => exact hnote _ (by simp [ends, hne])
  | _ => rfl

/-! ### All requests -/

theorem reachable_threads_own {W : World} {srv : Server} {c : Config W.State} (h : Reachable W srv c) {id : Nat} (hid : c.threads.length ≤ id) :
    own id c.sh.log = [] := by
  induction h with
  | init repo clock => rfl
  | @step c c' hc hs ih =>
    cases hs with
    | tick n => exact ih hid
    | arrive r => exact ih (Nat.le_of_succ_le (by simpa using hid))
    | thread j hj =>
      obtain ⟨pc0, pc', s', h0, ha, rfl⟩ := hj
      have hid : c.threads.length ≤ id := by simpa using hid
      have hj : j < c.threads.length := (List.getElem?_eq_some_iff.1 h0).1
      exact (others_step (by omega) ha).trans (ih hid)

/-- What is known of a request that has arrived. -/
def Known (W : World) (s : Site) (c : Config W.State) (r : HttpRequest) : Response ⊕ Nat → Prop
  | .inl resp => s.accept r = .answer resp
  | .inr id => ∃ req pc, s.accept r = .run req ∧ c.threads[id]? = some pc ∧ Doing W s.srv c id req pc (own id c.sh.log)

/-- What is known of the site. -/
structure Sound (W : World) (s : Site) (st : SiteState W.State) : Prop where
  reach : Swc.Reachable W s.srv st.conf
  known : ∀ (k : Nat) r x, st.inbox[k]? = some (r, x) → Known W s st.conf r x

theorem doing_begin {W : World} {srv : Server} {c : Config W.State} (id : Nat) (req : Request) : Doing W srv c id req (begin req) [] := by
  cases req <;> constructor

theorem step_of_site {W : World} {s : Site} {st st' : SiteState W.State} (h : Site.Step W s st st') :
    Later W s.srv st.conf st'.conf := by
  cases h with
  | thread i h => exact .step .refl (.thread i h)
  | now r h => exact .refl
  | later r h => exact .step .refl (.arrive _)
  | tick n => exact .step .refl (.tick n)

theorem sound {W : World} {s : Site} {st : SiteState W.State} (h : s.Reachable W st) : Sound W s st := by
  induction h with
  | init repo clock => exact ⟨.init _ _, fun k r x h => by simp at h⟩
  | @step st st' h hs ih =>
    have hl := step_of_site hs
    refine ⟨reachable_later ih.reach hl, fun k r x hk => ?_⟩
    cases hs with
    | now r' ha =>
      dsimp only at hk
      rw [List.getElem?_append] at hk
      split at hk
      · exact ih.known k r x hk
      · rw [List.getElem?_singleton] at hk
        split at hk
        · cases hk; exact ha
        · cases hk
    | tick n =>
      have := ih.known k r x hk
      cases x with
      | inl resp => exact this
      | inr id =>
        obtain ⟨req, pc, h1, h2, h3⟩ := this
        exact ⟨req, pc, h1, h2, h3.later hl⟩
    | later r' ha =>
      rename_i req'
      dsimp only at hk
      rw [List.getElem?_append] at hk
      split at hk
      · have := ih.known k r x hk
        cases x with
        | inl resp => exact this
        | inr id =>
          obtain ⟨req, pc, h1, h2, h3⟩ := this
          refine ⟨req, pc, h1, ?_, h3.later hl⟩
          exact List.getElem?_append_left (List.getElem?_eq_some_iff.1 h2).1 ▸ h2
      · rw [List.getElem?_singleton] at hk
        split at hk
        · cases hk
          refine ⟨req', begin req', ha, by simp, ?_⟩
          refine Eq.mpr (congrArg (Doing W s.srv _ _ _ _) (reachable_threads_own ih.reach (Nat.le_refl _))) ?_
          exact doing_begin _ _
        · cases hk
    | thread j hj =>
      have := ih.known k r x hk
      cases x with
      | inl resp => exact this
      | inr id =>
        obtain ⟨req, pc, h1, h2, h3⟩ := this
        obtain ⟨pc0, pc', s', h0, ha, rfl⟩ := hj
        by_cases hne : j = id
        · subst hne
          rw [h2] at h0
          cases h0
          have hlt := (List.getElem?_eq_some_iff.1 h2).1
          exact ⟨req, pc', h1, by simp [hlt], doing_step ih.reach h2 ha rfl h3⟩
        · refine ⟨req, pc, h1, by simpa [List.getElem?_set, hne] using h2, ?_⟩
          refine Eq.mpr (congrArg (Doing W s.srv _ _ _ _) (others_step hne ha)) ?_
          exact h3.later hl

/-! ### Answers -/

/-- What an answer to a request can be. -/
inductive Answers (W : World) (s : Site) (st : SiteState W.State) (r : HttpRequest) (x : Response ⊕ Nat) (resp : Response) : Prop
  | now (h : s.accept r = .answer resp)
  | compared {id a y cached t} (hx : x = .inr id) (h : s.accept r = .run (.compare a)) (hl : Entry.answered id a y cached t ∈ st.conf.sh.log)
      (hu : s.srv.repos a.repo = none → y = .error (str% "Unknown repo organization '" ++ a.repo ++ str% "'"))
      (hp : compareResponse s.srv.build s.version s.names (.ok a) (s.organization a.repo) (outcome cached y) = .ok resp)
  | listed {id repo f y} (hx : x = .inr id) (h : s.accept r = .run (.branches repo f)) (hl : Entry.listed id repo y ∈ st.conf.sh.log)
      (ho : match y with | .ok v => Outcome W s.srv st.conf id repo f (.ok v) | .error m => Outcome W s.srv st.conf id repo f (.err m))
      (hr : resp = s.branchesResponse y)
  | shown {handler} (h : s.accept r = .run .list) (hr : route r = some handler) (hp : s.listPage handler = some resp)

theorem answers {W : World} {s : Site} {st : SiteState W.State} (hR : s.Reachable W st) {k : Nat} {resp : Response} (h : s.Replied st k resp)
    {r : HttpRequest} {x : Response ⊕ Nat} (hk : st.inbox[k]? = some (r, x)) : Answers W s st r x resp := by
  have hs := (sound hR).known k r x hk
  cases h with
  | now h => rw [h] at hk; cases hk; exact .now hs
  | @compared r' id a y cached t _ h hl hp =>
    rw [h] at hk; cases hk
    obtain ⟨req, pc, h1, h2, h3⟩ := hs
    have hm := mem_own hl (show ends id (Entry.answered id a y cached t) = true from decide_eq_true rfl)
    generalize own id st.conf.sh.log = es at h3 hm
    cases h3 <;> simp only [List.mem_singleton, List.not_mem_nil, reduceCtorEq, Entry.answered.injEq] at hm
    rename_i hu
    obtain ⟨-, rfl, rfl, rfl, rfl⟩ := hm
    exact .compared rfl h1 hl hu hp
  | @listed r' id repo y h hl =>
    rw [h] at hk; cases hk
    obtain ⟨req, pc, h1, h2, h3⟩ := hs
    have hm := mem_own hl (show ends id (Entry.listed id repo y) = true from decide_eq_true rfl)
    generalize own id st.conf.sh.log = es at h3 hm
    cases h3 <;> simp only [List.mem_singleton, List.not_mem_nil, reduceCtorEq, Entry.listed.injEq] at hm
    · rename_i ho
      obtain ⟨-, rfl, rfl⟩ := hm
      exact .listed rfl h1 hl ho rfl
    · rename_i ho
      obtain ⟨-, rfl, rfl⟩ := hm
      exact .listed rfl h1 hl ho rfl
  | @shown r' id handler _ h hf hr hp =>
    rw [h] at hk; cases hk
    obtain ⟨req, pc, h1, h2, h3⟩ := hs
    refine .shown ?_ hr hp
    unfold Site.accept
    rw [hr]
    cases handler <;> first | rfl | cases hp

/-- What has ended the request determines the answer. -/
theorem replied_own {W : World} {s : Site} {st : SiteState W.State} (hR : s.Reachable W st) {k : Nat} {resp : Response} (h : s.Replied st k resp)
    {r : HttpRequest} {id : Nat} (hk : st.inbox[k]? = some (r, .inr id)) :
    (∃ a x cached t, own id st.conf.sh.log = [.answered id a x cached t] ∧
      compareResponse s.srv.build s.version s.names (.ok a) (s.organization a.repo) (outcome cached x) = .ok resp) ∨
    (∃ repo x, own id st.conf.sh.log = [.listed id repo x] ∧ resp = s.branchesResponse x) ∨
    ∃ handler, own id st.conf.sh.log = [] ∧ route r = some handler ∧ s.listPage handler = some resp := by
  obtain ⟨req, pc, h1, h2, h3⟩ := (sound hR).known k r _ hk
  cases h with
  | now h => rw [h] at hk; cases hk
  | @compared r' id' a y cached t _ h hl hp =>
    rw [h] at hk; cases hk
    have hm := mem_own hl (show ends id (Entry.answered id a y cached t) = true from decide_eq_true rfl)
    left
    generalize own id st.conf.sh.log = es at h3 hm ⊢
    cases h3 <;> simp only [List.mem_singleton, List.not_mem_nil, reduceCtorEq, Entry.answered.injEq] at hm
    obtain ⟨-, rfl, rfl, rfl, rfl⟩ := hm
    exact ⟨_, _, _, _, rfl, hp⟩
  | @listed r' id' repo y h hl =>
    rw [h] at hk; cases hk
    have hm := mem_own hl (show ends id (Entry.listed id repo y) = true from decide_eq_true rfl)
    right; left
    generalize own id st.conf.sh.log = es at h3 hm ⊢
    cases h3 <;> simp only [List.mem_singleton, List.not_mem_nil, reduceCtorEq, Entry.listed.injEq] at hm <;>
      (obtain ⟨-, rfl, rfl⟩ := hm; exact ⟨_, _, rfl, rfl⟩)
  | @shown r' id' handler _ h hf hr hp =>
    rw [h] at hk; cases hk
    right; right
    have ha : s.accept r = .run .list := by
      unfold Site.accept
      rw [hr]
      cases handler <;> first | rfl | cases hp
    rw [ha] at h1
    cases h1
    refine ⟨handler, ?_, hr, hp⟩
    generalize own id st.conf.sh.log = es at h3 ⊢
    cases h3 <;> rfl

/-- C89: no request is answered twice. -/
theorem C89_once {W : World} {s : Site} {st : SiteState W.State} (hR : s.Reachable W st) {k : Nat} {resp resp' : Response}
    (h : s.Replied st k resp) (h' : s.Replied st k resp') : resp = resp' := by
  have key : ∀ r x, st.inbox[k]? = some (r, x) → resp = resp' := by
    intro r x hk
    cases x with
    | inl y =>
      have : ∀ z, s.Replied st k z → z = y := by
        intro z hz
        cases hz with
        | now h => rw [h] at hk; cases hk; rfl
        | compared h => rw [h] at hk; cases hk
        | listed h => rw [h] at hk; cases hk
        | shown h => rw [h] at hk; cases hk
      rw [this _ h, this _ h']
    | inr id =>
      rcases replied_own hR h hk with ⟨a, x, ca, t, e, hp⟩ | ⟨repo, x, e, hp⟩ | ⟨hd, e, hr, hp⟩ <;>
      rcases replied_own hR h' hk with ⟨a', x', ca', t', e', hp'⟩ | ⟨repo', x', e', hp'⟩ | ⟨hd', e', hr', hp'⟩ <;>
      rw [e] at e' <;> cases e'
      · rw [hp] at hp'; cases hp'; rfl
      · rw [hp, hp']
      · rw [hr] at hr'; cases hr'; rw [hp] at hp'; cases hp'; rfl
  cases h with
  | now h => exact key _ _ h
  | compared h => exact key _ _ h
  | listed h => exact key _ _ h
  | shown h => exact key _ _ h

theorem log_grows {W : World} {srv : Server} {c c' : Config W.State} (hR : Reachable W srv c) (hl : Later W srv c c') {e : Entry W.State}
    (he : e ∈ c.sh.log) : e ∈ c'.sh.log := by
  induction hl with
  | refl => exact he
  | step hl hs ih =>
    cases hs with
    | tick n => exact ih
    | arrive r => exact ih
    | thread j hj =>
      obtain ⟨pc0, pc', s', h0, ha, rfl⟩ := hj
      have hR' := reachable_later hR hl
      obtain ⟨_, es, h2, _⟩ := known_step hR' ha ((known_list hR').1 _ _ h0)
      show e ∈ s'.log
      rw [h2]
      exact List.mem_append_left _ ih

theorem finished_stays {W : World} {srv : Server} {c c' : Config W.State} (hl : Later W srv c c') {i : Nat}
    (he : c.threads[i]? = some .finished) : c'.threads[i]? = some .finished := by
  induction hl with
  | refl => exact he
  | step hl hs ih =>
    cases hs with
    | tick n => exact ih
    | arrive r => exact List.getElem?_append_left (List.getElem?_eq_some_iff.1 ih).1 ▸ ih
    | thread j hj =>
      obtain ⟨pc0, pc', s', h0, ha, rfl⟩ := hj
      show (List.set _ _ _)[i]? = _
      rw [List.getElem?_set]
      split
      · rename_i e
        subst e
        rw [ih] at h0
        cases h0
        cases ha
      · exact ih

theorem replied_step {W : World} {s : Site} {st st' : SiteState W.State} (hR : s.Reachable W st) (hs : s.Step W st st') {k : Nat} {resp : Response}
    (h : s.Replied st k resp) : s.Replied st' k resp := by
  have hl := step_of_site hs
  have hin : ∀ {r x}, st.inbox[k]? = some (r, x) → st'.inbox[k]? = some (r, x) := by
    intro r x hk
    cases hs with
    | thread => exact hk
    | tick => exact hk
    | now => exact List.getElem?_append_left (List.getElem?_eq_some_iff.1 hk).1 ▸ hk
    | later => exact List.getElem?_append_left (List.getElem?_eq_some_iff.1 hk).1 ▸ hk
  have hc := (sound hR).reach
  cases h with
  | now h => exact .now (hin h)
  | compared h hm hp => exact .compared (hin h) (log_grows hc hl hm) hp
  | listed h hm => exact .listed (hin h) (log_grows hc hl hm)
  | shown h hf hr hp => exact .shown (hin h) (finished_stays hl hf) hr hp

theorem reachable_ahead {W : World} {s : Site} {st st' : SiteState W.State} (hR : s.Reachable W st) (h : Ahead W s st st') : s.Reachable W st' := by
  induction h with
  | refl => exact hR
  | step _ hs ih => exact .step ih hs

/-- C89: an answer stands, whatever happens afterwards. -/
theorem C89_kept {W : World} {s : Site} {st st' : SiteState W.State} (hR : s.Reachable W st) (hs : Ahead W s st st') {k : Nat} {resp : Response}
    (h : s.Replied st k resp) : s.Replied st' k resp := by
  induction hs with
  | refl => exact h
  | step ha hs ih => exact replied_step (reachable_ahead hR ha) hs ih

/-- C89: once its handler is done, a request has been answered, or the handler has panicked: while it worked, or while it made the page. -/
theorem C89_done {W : World} {s : Site} {st : SiteState W.State} (hR : s.Reachable W st) {k : Nat}
    (hd : ∀ r id, st.inbox[k]? = some (r, .inr id) → st.conf.threads[id]? = some .finished) (hk : k < st.inbox.length) : (∃ resp, s.Replied st k resp) ∨
    (∃ r id, st.inbox[k]? = some (r, .inr id) ∧ Entry.died id ∈ st.conf.sh.log) ∨
    ∃ r id a diff cached t org, st.inbox[k]? = some (r, .inr id) ∧ Entry.answered id a (.ok diff) cached t ∈ st.conf.sh.log ∧
      s.organization a.repo = some org ∧ ¬ ∃ page, comparePage s.srv.build s.version s.names org a diff cached = .ok page := by
  obtain ⟨⟨r, x⟩, hx⟩ : ∃ p, st.inbox[k]? = some p := ⟨_, List.getElem?_eq_getElem hk⟩
  cases x with
  | inl resp => exact .inl ⟨resp, .now hx⟩
  | inr id =>
    obtain ⟨req, pc, h1, h2, h3⟩ := (sound hR).known k r _ hx
    have hf := hd r id hx
    rw [h2] at hf
    cases hf
    have hin : ∀ e ∈ own id st.conf.sh.log, e ∈ st.conf.sh.log := fun e he => (List.mem_filter.1 he).1
    generalize own id st.conf.sh.log = es at h3 hin
    cases h3 with
    | @answered a y cached t hu =>
      have hm := hin _ List.mem_cons_self
      cases hp : compareResponse s.srv.build s.version s.names (.ok a) (s.organization a.repo) (outcome cached y) with
      | ok resp => exact .inl ⟨resp, .compared hx hm hp⟩
      | _ =>
        right; right
        unfold compareResponse at hp
        cases ho : s.organization a.repo with
        | none => rw [ho] at hp; cases hp
        | some org =>
          rw [ho] at hp
          cases y with
          | error m => cases hp
          | ok diff =>
            refine ⟨r, id, a, diff, cached, t, org, hx, hm, ho, ?_⟩
            rintro ⟨page, he⟩
            dsimp only [outcome] at hp
            rw [he] at hp
            cases hp
    | compareDied _ h _ => exact .inr (.inl ⟨r, id, hx, hin _ List.mem_cons_self⟩)
    | branchDied => exact .inr (.inl ⟨r, id, hx, hin _ List.mem_cons_self⟩)
    | listed h => exact .inl ⟨_, .listed hx (hin _ List.mem_cons_self)⟩
    | unlisted h => exact .inl ⟨_, .listed hx (hin _ List.mem_cons_self)⟩
    | shown =>
      left
      unfold Site.accept at h1
      cases hr : route r with
      | none => rw [hr] at h1; cases h1
      | some handler =>
        rw [hr] at h1
        cases handler with
        | root => exact ⟨_, .shown hx h2 hr rfl⟩
        | mergeRequests => exact ⟨_, .shown hx h2 hr rfl⟩
        | compareCommit => exact ⟨_, .shown hx h2 hr rfl⟩
        | files t => cases h1
        | badge => cases h1
        | compare => dsimp only at h1; split at h1 <;> cases h1
        | version => dsimp only at h1; split at h1 <;> cases h1
        | branches => dsimp only at h1; split at h1 <;> cases h1

/-- C89: once nothing is left to do, every request has been answered, or its handler has panicked: while it worked, or while it made the page. -/
theorem C89_settled {W : World} {s : Site} {st : SiteState W.State} (hR : s.Reachable W st) (hd : AllDone st.conf) {k : Nat}
    (hk : k < st.inbox.length) : (∃ resp, s.Replied st k resp) ∨
    (∃ r id, st.inbox[k]? = some (r, .inr id) ∧ Entry.died id ∈ st.conf.sh.log) ∨
    ∃ r id a diff cached t org, st.inbox[k]? = some (r, .inr id) ∧ Entry.answered id a (.ok diff) cached t ∈ st.conf.sh.log ∧
      s.organization a.repo = some org ∧ ¬ ∃ page, comparePage s.srv.build s.version s.names org a diff cached = .ok page := by
  refine C89_done hR (fun r id hx => ?_) hk
  obtain ⟨req, pc, -, h2, -⟩ := (sound hR).known k r _ hx
  rw [h2, hd _ _ h2]

/-- As long as no request arrives, the site does what the server does. -/
theorem ahead_of_later {W : World} {s : Site} {c c' : Config W.State} (hl : Later W s.srv c c') : c.threads.length ≤ c'.threads.length ∧
    (c'.threads.length = c.threads.length → ∀ inbox, Ahead W s ⟨c, inbox⟩ ⟨c', inbox⟩) := by
  induction hl with
  | refl => exact ⟨Nat.le_refl _, fun _ _ => .refl⟩
  | step hl hs ih =>
    cases hs with
    | tick n => exact ⟨ih.1, fun e i => .step (ih.2 e i) (.tick n)⟩
    | arrive r => exact ⟨by simp; omega, fun e => by simp at e; omega⟩
    | thread j hj =>
      obtain ⟨pc0, pc', s', h0, ha, rfl⟩ := id hj
      refine ⟨by simpa using ih.1, fun e i => .step (ih.2 (by simpa using e) i) (.thread (st := ⟨_, i⟩) j hj)⟩

/-- C89: at any time, if no further requests come, the server can get to where nothing is left to do. -/
theorem C89_settles {W : World} {s : Site} {st : SiteState W.State} (hR : s.Reachable W st) :
    ∃ st', Ahead W s st st' ∧ st'.inbox = st.inbox ∧ AllDone st'.conf := by
  obtain ⟨c', h1, h2, h3⟩ := C56_all_finish (sound hR).reach
  exact ⟨⟨c', st.inbox⟩, (ahead_of_later h1).2 h3 st.inbox, rfl, h2⟩

/-! ### The start -/

/-- C89: the server starts exactly if its arguments write down options, repositories are given, each one exists below the root and has a GitHub origin,
and the directory of files is there. -/
theorem C89_starts (m : Machine) (args : List Str) (c : ServerCmd) : (∃ repos, serverStart m args = some (.ok (c, repos))) ↔
    (∃ g, Written serverArguments g args ∧ SaysServer g c) ∧ c.repos ≠ [] ∧ m.isDir c.static = true ∧
      ∀ n ∈ c.repos, m.exists_ (c.root.join n) = true ∧ ∃ org, getOriginOrg (m.origin (c.root.join n)) = .ok org := by
  rw [← C86_server]
  have hiff := (C66_starts_iff ⟨c.root.join, m.origin, m.exists_, m.isDir c.static, debugStr m.plain c.static.display⟩ c.repos).1
  unfold serverStart
  constructor
  · rintro ⟨repos, h⟩
    obtain ⟨c', hc, h⟩ := Option.map_eq_some_iff.1 h
    cases hst : startup ⟨c'.root.join, m.origin, m.exists_, m.isDir c'.static, debugStr m.plain c'.static.display⟩ c'.repos with
    | ok m' =>
      rw [hst] at h
      cases h
      obtain ⟨h1, h2, h3⟩ := hiff.1 ⟨_, hst⟩
      exact ⟨hc, h1, h3, h2⟩
    | err e => rw [hst] at h; cases h
    | panic => rw [hst] at h; cases h
    | diverge => rw [hst] at h; cases h
  · rintro ⟨hc, h1, h2, h3⟩
    obtain ⟨m', hm⟩ := hiff.2 ⟨h1, h3, h2⟩
    refine ⟨m', ?_⟩
    rw [hc]
    show some (Res.map _ (startup ⟨c.root.join, m.origin, m.exists_, m.isDir c.static, debugStr m.plain c.static.display⟩ c.repos)) = _
    rw [hm]
    rfl

/-- C89: the site knows exactly the repositories of the command line; each is the directory of that name below the root, and its
organisation is that of its origin. -/
theorem C89_serves {s : Site} {m : Machine} {args : List Str} {c : ServerCmd} (h : s.Started m args c) (n : Str) :
    (n ∈ s.names ↔ n ∈ c.repos) ∧ (n ∉ c.repos → s.srv.repos n = none ∧ s.organization n = none) ∧
    (n ∈ c.repos → ∃ org, getOriginOrg (m.origin (c.root.join n)) = .ok org ∧ s.srv.repos n = some (c.root.join n) ∧ s.organization n = some org) := by
  obtain ⟨repos, h, hs⟩ := h
  unfold serverStart at h
  obtain ⟨c', hc, h⟩ := Option.map_eq_some_iff.1 h
  cases hst : startup ⟨c'.root.join, m.origin, m.exists_, m.isDir c'.static, debugStr m.plain c'.static.display⟩ c'.repos with
  | ok m' =>
    rw [hst] at h
    cases h
    have hm := fun n => C66_repos _ _ _ hst n
    have hin : ∀ e, e ∈ s.entries → repos.lookup e.name = some e := fun e => (hs.entries e).1
    have horg : ∀ n, s.organization n = (repos.lookup n).map (·.organization) := by
      intro n
      unfold Site.organization
      cases hf : s.entries.find? fun e => e.name = n with
      | some e =>
        have h1 := List.find?_some hf
        have h2 := hin e (List.mem_of_find?_eq_some hf)
        rw [of_decide_eq_true h1] at h2
        rw [h2]
      | none =>
        by_cases hn : n ∈ c.repos
        · obtain ⟨org, _, hl⟩ := (hm n).2 hn
          have := List.find?_eq_none.1 hf _ ((hs.entries ⟨n, c.root.join n, org⟩).2 hl)
          simp at this
        · rw [(hm n).1 hn, Option.map_none]
    refine ⟨⟨fun hn => ?_, fun hn => ?_⟩, fun hn => ?_, fun hn => ?_⟩
    · obtain ⟨e, he, rfl⟩ := List.mem_map.1 hn
      by_contra hc
      have := hin e he
      rw [(hm _).1 hc] at this
      cases this
    · obtain ⟨org, _, hl⟩ := (hm n).2 hn
      exact List.mem_map.2 ⟨_, (hs.entries ⟨n, c.root.join n, org⟩).2 hl, rfl⟩
    · rw [hs.repos, horg, (hm n).1 hn]
      exact ⟨rfl, rfl⟩
    · obtain ⟨org, ho, hl⟩ := (hm n).2 hn
      rw [hs.repos, horg, hl]
      exact ⟨org, ho, rfl, rfl⟩
  | err e => rw [hst] at h; cases h
  | panic => rw [hst] at h; cases h
  | diverge => rw [hst] at h; cases h

theorem splitChar_glue (d : Char) (a b : Str) : splitChar d (a ++ d :: b) = splitChar d a ++ splitChar d b := by
  induction a with
  | nil => simp [splitChar]
  | cons c a ih =>
    rw [List.cons_append, splitChar, splitChar]
    by_cases hc : c = d
    · rw [if_pos hc, if_pos hc, ih, List.cons_append]
    · rw [if_neg hc, if_neg hc, ih]
      cases h : splitChar d a with
      | nil => exact absurd h (splitChar_ne_nil d a)
      | cons x l => rfl

/-- C89: the directory of a repository is the one that the root, a slash and the name of the repository name together; so the names may lead to directories further
below, or above.  Names that begin with a slash are directories of their own, outside of the root. -/
theorem C89_below {root : Str} {p : Path} (h : PathText root p) (name : Str) :
    (name.head? ≠ some '/' → PathText (root ++ str% "/" ++ name) (p.join name)) ∧ (name.head? = some '/' → PathText name (p.join name)) := by
  rw [← readPath_iff] at h
  simp only [← readPath_iff]
  constructor
  · intro hn
    have hne : ¬ root = [] := fun e => by rw [readPath, if_pos e] at h; cases h
    have key : readPath (root ++ str% "/" ++ name) = some (p ++ (((splitChar '/' name).filter fun t => t ≠ [] ∧ t ≠ str% ".").map
        fun t => if t = str% ".." then Comp.parent else .normal t)) := by
      unfold readPath at h ⊢
      rw [if_neg hne] at h
      rw [if_neg (by simp [hne]), List.append_assoc]
      change (match splitChar '/' (root ++ '/' :: name) with | [] :: rest => _ | ['.'] :: rest => _ | l => _) = _
      rw [splitChar_glue]
      dsimp only at h
      cases hs : splitChar '/' root with
      | nil => exact absurd hs (splitChar_ne_nil _ _)
      | cons x l =>
        rw [hs] at h
        rw [List.cons_append]
        split at h
        · next e => cases e; cases h; simp
        · next e => cases e; cases h; simp
        · next e1 e2 =>
          cases h
          split
          · next e => cases e; exact absurd rfl (e1 l)
          · next e => cases e; exact absurd rfl (e2 l)
          · next e3 e4 => dsimp only; rw [← List.cons_append, List.filter_append, List.map_append]
    rw [key]
    unfold Path.join readPath
    by_cases h0 : name = []
    · subst h0
      simp [splitChar]
    · rw [if_neg h0]
      dsimp only
      cases hs : splitChar '/' name with
      | nil => exact absurd hs (splitChar_ne_nil _ _)
      | cons x l =>
        cases name with
        | nil => exact absurd rfl h0
        | cons c t =>
          have hc : c ≠ '/' := fun e => hn (by rw [e]; rfl)
          have hx : x ≠ [] := by
            rw [splitChar, if_neg hc] at hs
            cases h2 : splitChar '/' t with
            | nil => rw [h2] at hs; cases hs; simp
            | cons y z => rw [h2] at hs; cases hs; simp
          by_cases hd : x = ['.']
          · subst hd
            simp
          · have hf : ((x :: l).filter fun t => t ≠ [] ∧ t ≠ str% ".") = x :: (l.filter fun t => t ≠ [] ∧ t ≠ str% ".") := by simp [hx, hd]
            split
            · next e => split at e <;> cases e
            · next q e =>
              split at e
              · next e' => cases e'; exact absurd rfl hx
              · next e' => cases e'; exact absurd rfl hd
              · rw [hf, List.map_cons] at e
                by_cases h2 : x = str% ".." <;> simp [h2] at e
            · next q e =>
              split at e
              · next e' => cases e'; exact absurd rfl hx
              · next e' => cases e'; exact absurd rfl hd
              · rw [hf, List.map_cons] at e
                by_cases h2 : x = str% ".." <;> simp [h2] at e
            · next q e e1 e2 =>
              split at e2
              · next e' => cases e'; exact absurd rfl hx
              · next e' => cases e'; exact absurd rfl hd
              · cases e2; rfl
  · intro hn
    cases name with
    | nil => cases hn
    | cons c t =>
      cases hn
      unfold Path.join readPath
      rw [if_neg (by simp)]
      simp [splitChar]

example : PathText (str% "root/polkadot-sdk") (Path.join [.normal (str% "root")] (str% "polkadot-sdk")) :=
  (C89_below ((readPath_iff (str% "root") _).1 (by decide)) (str% "polkadot-sdk")).1 (by decide)

example : Path.join [.normal (str% "root")] (str% "../a/./b/") = [.normal (str% "root"), .parent, .normal (str% "a"), .normal (str% "b")] ∧
    Path.join [.normal (str% "root")] (str% "/etc") = [.root, .normal (str% "etc")] := by decide

/-! ### The pages -/

/-- C89: what leads nowhere is answered with 404, without content. -/
theorem C89_not_found {W : World} {s : Site} {st : SiteState W.State} (hR : s.Reachable W st) {k : Nat} {r : HttpRequest} {x : Response ⊕ Nat}
    (hk : st.inbox[k]? = some (r, x)) {resp : Response} (h : s.Replied st k resp) (h1 : ¬ BelowStatic r)
    (h2 : ∀ h a, address h = some a → ¬ Requests r a) : resp.status = 404 ∧ resp.body = [] := by
  have hr := (C89_nowhere r).2 ⟨h1, h2⟩
  have ha : s.accept r = .answer ⟨404, [], []⟩ := by unfold Site.accept; rw [hr]
  cases answers hR h hk with
  | now h => rw [ha] at h; cases h; exact ⟨rfl, rfl⟩
  | compared _ h => rw [ha] at h; cases h
  | listed _ h => rw [ha] at h; cases h
  | shown h => rw [ha] at h; cases h

/-- What the answer to an accepted request for a comparison can be. -/
theorem compare_core {W : World} {s : Site} {st : SiteState W.State} (hR : s.Reachable W st) {m : Machine} {args : List Str} {cmd : ServerCmd}
    (hS : s.Started m args cmd) {k : Nat} {r : HttpRequest} {x : Response ⊕ Nat}
    (hk : st.inbox[k]? = some (r, x)) {resp : Response} (h : s.Replied st k resp) (hr : Requests r (str% "/compare"))
    {a : CompareArgs} (hq : requestArgs s.u s.ent r.query = some a) :
    (a.repo ∉ cmd.repos ∧ resp.status = 500 ∧
      textOf (tokens resp.body) (str% "h2") = str% "Unknown repo organization '" ++ a.repo ++ str% "'") ∨
    (∃ id msg t, x = .inr id ∧ Entry.answered id a (.error msg) false t ∈ st.conf.sh.log ∧ a.repo ∈ cmd.repos ∧ resp.status = 500 ∧
      textOf (tokens resp.body) (str% "h2") = msg) ∨
    ∃ id diff cached t org, x = .inr id ∧ Entry.answered id a (.ok diff) cached t ∈ st.conf.sh.log ∧ a.repo ∈ cmd.repos ∧
      getOriginOrg (m.origin (cmd.root.join a.repo)) = .ok org ∧ resp.status = 200 ∧ resp.contentType = textHtml ∧
      comparePage s.srv.build s.version s.names org a diff cached = .ok resp.body := by
  have hro : route r = some .compare := (C89_route r rfl).2 hr
  have ha : s.accept r = .run (.compare a) := by unfold Site.accept; rw [hro]; dsimp only; rw [hq]
  cases answers hR h hk with
  | now h => rw [ha] at h; cases h
  | listed _ h => rw [ha] at h; cases h
  | shown h => rw [ha] at h; cases h
  | @compared id a' y cached t hx h hl hu hp =>
    rw [ha] at h
    cases h
    obtain ⟨-, h1, h2⟩ := C89_serves hS a.repo
    by_cases hc : a.repo ∈ cmd.repos
    · obtain ⟨org, ho, hpth, horg⟩ := h2 hc
      rw [horg] at hp
      cases y with
      | error msg =>
        obtain rfl := C54_errors_not_cached (sound hR).reach hl
        cases hp
        exact .inr (.inl ⟨id, msg, t, hx, hl, hc, rfl, (C74_error_page _).1⟩)
      | ok diff =>
        right; right
        have hp : (comparePage s.srv.build s.version s.names org a diff cached).map (fun body => (⟨200, textHtml, body⟩ : Response)) = .ok resp := hp
        cases hpg : comparePage s.srv.build s.version s.names org a diff cached with
        | ok page =>
          rw [hpg] at hp
          cases hp
          exact ⟨id, diff, cached, t, org, hx, hl, hc, ho, rfl, rfl, hpg⟩
        | err e => rw [hpg] at hp; cases hp
        | panic => rw [hpg] at hp; cases hp
        | diverge => rw [hpg] at hp; cases hp
    · rw [(h1 hc).2] at hp
      cases hp
      exact .inl ⟨hc, rfl, (C74_error_page _).1⟩

/-- C89: every answer to a request for a comparison.  Its query is not one, and the page says so; or the repository is not on the command line, or the
comparison failed, and the page shows the message; or the comparison succeeded for exactly what the query spells, up to HTML entities, and the page is that of
its result. -/
theorem C89_compare {W : World} {s : Site} {st : SiteState W.State} (hR : s.Reachable W st) {m : Machine} {args : List Str} {cmd : ServerCmd}
    (hS : s.Started m args cmd) {k : Nat} {r : HttpRequest} {x : Response ⊕ Nat}
    (hk : st.inbox[k]? = some (r, x)) {resp : Response} (h : s.Replied st k resp) (hr : Requests r (str% "/compare"))
    {ps : List (Str × Str)} (hs : SpellsPairs ps r.query) :
    ((¬ ∃ a, Asks ps a) ∧ resp.status = 500 ∧ textOf (tokens resp.body) (str% "h2") = s.queryError r.query) ∨
    ∃ asked a, Asks ps asked ∧
      a = { asked with new := s.ent.decode asked.new, old := s.ent.decode asked.old, pathPattern := s.ent.decode asked.pathPattern } ∧
      ((a.repo ∉ cmd.repos ∧ resp.status = 500 ∧
          textOf (tokens resp.body) (str% "h2") = str% "Unknown repo organization '" ++ a.repo ++ str% "'") ∨
        (∃ id msg t, x = .inr id ∧ Entry.answered id a (.error msg) false t ∈ st.conf.sh.log ∧ a.repo ∈ cmd.repos ∧ resp.status = 500 ∧
          textOf (tokens resp.body) (str% "h2") = msg) ∨
        ∃ id diff cached t org, x = .inr id ∧ Entry.answered id a (.ok diff) cached t ∈ st.conf.sh.log ∧ a.repo ∈ cmd.repos ∧
          getOriginOrg (m.origin (cmd.root.join a.repo)) = .ok org ∧ resp.status = 200 ∧ resp.contentType = textHtml ∧
          comparePage s.srv.build s.version s.names org a diff cached = .ok resp.body) := by
  have hro : route r = some .compare := (C89_route r rfl).2 hr
  cases hq : requestArgs s.u s.ent r.query with
  | none =>
    have ha : s.accept r = .answer ⟨500, textHtml, errorPage (s.queryError r.query)⟩ := by unfold Site.accept; rw [hro]; dsimp only; rw [hq]
    left
    refine ⟨fun ⟨a, hA⟩ => ?_, ?_⟩
    · rw [← C69_query s.u hs] at hA
      unfold requestArgs at hq
      rw [hA] at hq
      cases hq
    · cases answers hR h hk with
      | now h => rw [ha] at h; cases h; exact ⟨rfl, (C74_error_page _).1⟩
      | compared _ h => rw [ha] at h; cases h
      | listed _ h => rw [ha] at h; cases h
      | shown h => rw [ha] at h; cases h
  | some a =>
    right
    obtain ⟨asked, hA, he⟩ := C87_request hs hq
    exact ⟨asked, a, hA, he, compare_core hR hS hk h hr hq⟩

/-- C89: from the command line and the request line to the report.  A successful answer to a request for a comparison was computed at most ten
minutes before, for what the query spells, from the two revisions checked out in the directory of that repository below the root; and if all files of both
checkouts are generated weight files, the page shows the complete report on the functions in them. -/
theorem C89_report {W : World} {s : Site} {st : SiteState W.State} (hR : s.Reachable W st) {m : Machine} {args : List Str} {cmd : ServerCmd}
    (hS : s.Started m args cmd) (hsyn : s.srv.env.syn = rustSyn) {k : Nat} {r : HttpRequest} {x : Response ⊕ Nat}
    (hk : st.inbox[k]? = some (r, x)) {resp : Response} (h : s.Replied st k resp) (hr : Requests r (str% "/compare"))
    {ps : List (Str × Str)} (hs : SpellsPairs ps r.query) (h200 : resp.status = 200) (hb : BareNames s.names) :
    ∃ asked a org, Asks ps asked ∧
      a = { asked with new := s.ent.decode asked.new, old := s.ent.decode asked.old, pathPattern := s.ent.decode asked.pathPattern } ∧
      a.repo ∈ cmd.repos ∧ getOriginOrg (m.origin (cmd.root.join a.repo)) = .ok org ∧
      (Inert org → Inert a.repo → Inert a.old → Inert a.new →
        ∃ diff t id' ho st0 fi t' G1 s1 files1 G2 s2 files2,
          Entry.computed id' a ho st0 fi (.ok diff) t' ∈ st.conf.sh.log ∧ t' ≤ t ∧ t < t' + maxAge ∧
          CheckedOut W (trim a.old) (a.gitPull ≠ some false) true st0 G1 s1 ∧ Listed W s1 (cmd.root.join a.repo) (trim a.pathPattern) 6000 files1 ∧
          CheckedOut W (trim a.new) (a.gitPull ≠ some false) true s1 G2 s2 ∧ Listed W s2 (cmd.root.join a.repo) (trim a.pathPattern) 6000 files2 ∧
          ∀ olds news, FunctionsOf (W.fs s1) (cmd.root.join a.repo) a.ignoreErrors files1 olds →
            FunctionsOf (W.fs s2) (cmd.root.join a.repo) a.ignoreErrors files2 news → AllSized a.method a.unit olds news →
            (∀ y, y ∈ olds ∨ y ∈ news → Inert y.file) → ∃ all, ShowsReport s.srv.rx a org olds news all diff resp.body) := by
  rcases C89_compare hR hS hk h hr hs with ⟨_, h5, _⟩ | ⟨asked, a, hA, he, ⟨_, h5, _⟩ | ⟨_, _, _, _, _, _, h5, _⟩ | ⟨id, diff, cached, t, org, hx, hl, hc, ho, _, hct, hpg⟩⟩
  · rw [h5] at h200; cases h200
  · rw [h5] at h200; cases h200
  · rw [h5] at h200; cases h200
  · refine ⟨asked, a, org, hA, he, hc, ho, fun i1 i2 i3 i4 => ?_⟩
    obtain ⟨repo, id', hord, st0, fi, t', G1, s1, files1, G2, s2, files2, g1, g2⟩ := C87_answer (sound hR).reach hsyn hl
      (b := s.srv.build) (version := s.version) (repos := s.names) (org := org) (page := resp.body)
      (by show Res.map _ _ = _; rw [hpg]; rfl) hb i1 i2 i3 i4
    obtain ⟨org', _, hp, _⟩ := (C89_serves hS a.repo).2.2 hc
    rw [hp] at g1
    cases g1
    exact ⟨diff, t, id', hord, st0, fi, t', G1, s1, files1, G2, s2, files2, g2⟩

/-- C89: every answer to a request for branches.  Its query is not one, or the repository is not on the command line, or git failed for this request, and
the status and the text say so; or the answer has the names and short hashes that git printed in this repository for this request and, if asked to fetch,
after having fetched for it. -/
theorem C89_branches {W : World} {s : Site} {st : SiteState W.State} (hR : s.Reachable W st) {m : Machine} {args : List Str} {cmd : ServerCmd}
    (hS : s.Started m args cmd) {k : Nat} {r : HttpRequest} {x : Response ⊕ Nat}
    (hk : st.inbox[k]? = some (r, x)) {resp : Response} (h : s.Replied st k resp) (hr : Requests r (str% "/branches"))
    {ps : List (Str × Str)} (hs : SpellsPairs ps r.query) :
    ((¬ ∃ repo f, AsksBranches ps repo f) ∧ resp.status = 500 ∧ resp.body = str% "Failed to parse query: " ++ s.queryError r.query) ∨
    ∃ repo f, AsksBranches ps repo f ∧
      ((repo ∉ cmd.repos ∧ resp.status ≠ 200 ∧ resp.body = str% "Unknown repo '" ++ repo ++ str% "'") ∨
        (∃ id, x = .inr id ∧ repo ∈ cmd.repos ∧ resp.status ≠ 200 ∧ ListingFails W s.srv st.conf id repo f resp.body) ∨
        ∃ id v, x = .inr id ∧ repo ∈ cmd.repos ∧ resp.status = 200 ∧ readBranches resp.body = some v ∧ FreshList W s.srv st.conf id repo f v) := by
  have hro : route r = some .branches := (C89_route r rfl).2 hr
  cases hq : parseBranchQuery s.u r.query with
  | none =>
    have ha : s.accept r = .answer ⟨500, textPlain, str% "Failed to parse query: " ++ s.queryError r.query⟩ := by
      unfold Site.accept; rw [hro]; dsimp only; rw [hq]
    left
    refine ⟨fun ⟨repo, f, hA⟩ => ?_, ?_⟩
    · rw [← C84_query s.u hs, hq] at hA; cases hA
    · cases answers hR h hk with
      | now h => rw [ha] at h; cases h; exact ⟨rfl, rfl⟩
      | compared _ h => rw [ha] at h; cases h
      | listed _ h => rw [ha] at h; cases h
      | shown h => rw [ha] at h; cases h
  | some p =>
    obtain ⟨repo, f⟩ := p
    have ha : s.accept r = .run (.branches repo f) := by unfold Site.accept; rw [hro]; dsimp only; rw [hq]
    right
    refine ⟨repo, f, (C84_query s.u hs repo f).1 hq, ?_⟩
    have hst : ∀ e, s.ioStatus e ≠ 200 := fun e he => by rcases s.ioStatus_mem e with h | h | h <;> rw [h] at he <;> cases he
    obtain ⟨-, h1, h2⟩ := C89_serves hS repo
    cases answers hR h hk with
    | now h => rw [ha] at h; cases h
    | compared _ h => rw [ha] at h; cases h
    | shown h => rw [ha] at h; cases h
    | @listed id repo' f' y hx h hl ho hres =>
      rw [ha] at h
      cases h
      subst hres
      by_cases hc : repo ∈ cmd.repos
      · right
        cases y with
        | ok v => exact .inr ⟨id, v, hx, hc, rfl, C84_read v, ho.2⟩
        | error e =>
          rcases ho with ⟨hn, _⟩ | ⟨_, ho⟩
          · obtain ⟨_, _, hp, _⟩ := h2 hc
            rw [hn] at hp; cases hp
          · exact .inl ⟨id, hx, hc, hst e, ho⟩
      · left
        cases y with
        | ok v => exact absurd (h1 hc).1 ho.1
        | error e =>
          rcases ho with ⟨_, ho⟩ | ⟨hn, _⟩
          · exact ⟨hc, hst e, ho⟩
          · exact absurd (h1 hc).1 hn

/-- C89: the start page, under both of its addresses, offers the repositories of the site and says how many there are. -/
theorem C89_start_page {W : World} {s : Site} {st : SiteState W.State} (hR : s.Reachable W st) {k : Nat} {r : HttpRequest} {x : Response ⊕ Nat}
    (hk : st.inbox[k]? = some (r, x)) {resp : Response} (h : s.Replied st k resp) (hr : Requests r (str% "/") ∨ Requests r (str% "/compare-commit")) :
    resp.status = 200 ∧ offers (tokens resp.body) (str% "repoSelect") = s.names.map (fun n => (asciiLower n, n)) ∧
      textOf (tokens resp.body) (str% "var") = natToStr s.names.length := by
  have hro : route r = some .root ∨ route r = some .compareCommit := hr.imp (C89_route r rfl).2 (C89_route r rfl).2
  have ha : s.accept r = .run .list := by unfold Site.accept; rcases hro with h | h <;> rw [h]
  cases answers hR h hk with
  | now h => rw [ha] at h; cases h
  | compared _ h => rw [ha] at h; cases h
  | listed _ h => rw [ha] at h; cases h
  | shown h hr hp => rcases hro with h | h <;> (rw [hr] at h; cases h; cases hp; exact ⟨rfl, C75_start_list _⟩)

/-- C89: the page of the merge requests offers the repositories of the site with their organisations. -/
theorem C89_merge_request_page {W : World} {s : Site} {st : SiteState W.State} (hR : s.Reachable W st) {k : Nat} {r : HttpRequest} {x : Response ⊕ Nat}
    (hk : st.inbox[k]? = some (r, x)) {resp : Response} (h : s.Replied st k resp) (hr : Requests r (str% "/compare-mr"))
    (hb : ∀ e ∈ s.entries, ∀ c ∈ e.organization ++ e.name, isBlank c = false) :
    resp.status = 200 ∧
      (offers (tokens resp.body) (str% "select_repo")).map Prod.snd = s.entries.map (fun e => e.organization ++ str% ":" ++ e.name) := by
  have hro : route r = some .mergeRequests := (C89_route r rfl).2 hr
  have ha : s.accept r = .run .list := by unfold Site.accept; rw [hro]
  cases answers hR h hk with
  | now h => rw [ha] at h; cases h
  | compared _ h => rw [ha] at h; cases h
  | listed _ h => rw [ha] at h; cases h
  | shown h hr hp => rw [hro] at hr; cases hr; cases hp; exact ⟨rfl, (C75_merge_request_list hb).1⟩

theorem version_query (u : Utf8Lossy) {ps : List (Str × Str)} {q : Bytes} (h : SpellsPairs ps q) (is : Option Str) :
    parseVersionQuery u q = some is ↔ (is = none ∧ Never ps (str% "is")) ∨ ∃ v, is = some v ∧ Once ps (str% "is") v := by
  unfold parseVersionQuery
  rw [C69_spelled u h, show (fun slot p => visitField (str% "is") some slot p) = visitField (str% "is") some from rfl, visitField_fold]
  cases is with
  | none => simp [Slot]
  | some v => rw [slot_str]; simp

/-- C89: `/version` answers with the version; with `is` it answers whether that is the version, up to spaces for `+`; with `is` more than once it answers 400. -/
theorem C89_version {W : World} {s : Site} {st : SiteState W.State} (hR : s.Reachable W st) {k : Nat} {r : HttpRequest} {x : Response ⊕ Nat}
    (hk : st.inbox[k]? = some (r, x)) {resp : Response} (h : s.Replied st k resp) (hr : Requests r (str% "/version"))
    {ps : List (Str × Str)} (hs : SpellsPairs ps r.query) :
    (Never ps (str% "is") → resp.status = 200 ∧ resp.body = s.version) ∧
    (∀ v, Once ps (str% "is") v → (resp.status = 200 ↔ v = s.version ∨ PlusToSpace s.version v) ∧
      (resp.status = 500 ↔ ¬ (v = s.version ∨ PlusToSpace s.version v))) ∧
    (¬ Never ps (str% "is") → (¬ ∃ v, Once ps (str% "is") v) → resp.status = 400) := by
  have hro : route r = some .version := (C89_route r rfl).2 hr
  have ha : ∃ resp', s.accept r = .answer resp' ∧ resp' = match parseVersionQuery s.u r.query with
      | none => ⟨400, textPlain, s.badQuery r.query⟩
      | some is => Swc.version s.version is := by
    unfold Site.accept; rw [hro]; dsimp only
    cases parseVersionQuery s.u r.query <;> exact ⟨_, rfl, rfl⟩
  obtain ⟨resp', ha, he⟩ := ha
  have hresp : resp = resp' := by
    cases answers hR h hk with
    | now h => rw [ha] at h; cases h; rfl
    | compared _ h => rw [ha] at h; cases h
    | listed _ h => rw [ha] at h; cases h
    | shown h => rw [ha] at h; cases h
  rw [hresp, he]
  refine ⟨fun hn => ?_, fun v hv => ?_, fun h1 h2 => ?_⟩
  · rw [(version_query s.u hs none).2 (.inl ⟨rfl, hn⟩)]
    exact ⟨rfl, rfl⟩
  · rw [(version_query s.u hs (some v)).2 (.inr ⟨v, rfl, hv⟩)]
    exact C65_version s.version v
  · cases hq : parseVersionQuery s.u r.query with
    | none => rfl
    | some is =>
      rcases (version_query s.u hs is).1 hq with ⟨_, h⟩ | ⟨v, _, h⟩
      · exact absurd h h1
      · exact absurd ⟨v, h⟩ h2

/-! ### The ways to the pages -/

theorem writes_plain {s : Bytes} (h : (0x25 : UInt8) ∉ s) : WritesPath s s := by
  induction s with
  | nil => exact .nil
  | cons b s ih => exact .plain (fun e => h (e ▸ List.mem_cons_self)) (ih fun e => h (List.mem_cons_of_mem _ e))

/-- C89: an address written as it is leads to its page, with any query. -/
theorem C89_plain {h : Handler} {a : Str} (ha : address h = some a) (q : Bytes) : Requests ⟨str% "GET", utf8 a, q⟩ a := by
  refine ⟨rfl, writes_plain ?_⟩
  cases h <;> simp only [address, Option.some.injEq, reduceCtorEq] at ha <;> subst ha <;> decide

/-- C89: from the start page to the answer.  If a repository with a preset and two revisions are selected, the button asks the server for the comparison
that the summary shows; a successful answer is the page of a comparison made with exactly these arguments. -/
theorem C89_button {W : World} {s : Site} {st : SiteState W.State} (hR : s.Reachable W st) {m : Machine} {args : List Str} {cmd : ServerCmd}
    (hS : s.Started m args cmd) {store : Str → Option Str} {tr : List PageEvent} {p : StartPage} (hv : Visit s.names store tr p)
    {n f g pattern : Str} (hr : p.repo = some n) (hf : p.first = some f) (hg : p.second = some g) (hp : pathPresets.lookup n = some pattern)
    (h1 : UrlSafe f) (h2 : UrlSafe g) (p1 : '+' ∉ f) (p2 : '+' ∉ g) : ∃ q, p.compare = some q ∧
      ∀ k x resp, st.inbox[k]? = some (⟨str% "GET", utf8 (str% "/compare"), q⟩, x) → s.Replied st k resp →
        p.shownRepo = n ∧ p.shownFirst = f ∧ p.shownSecond = g ∧
        ∃ a : CompareArgs, a =
            { old := f, new := g, repo := n, pathPattern := pattern, extrinsic := none, pallet := none, ignoreErrors := true,
              threshold := 10, unit := .time, gitPull := none, method := .asymptotic } ∧
          ((∃ id msg t, x = .inr id ∧ Entry.answered id a (.error msg) false t ∈ st.conf.sh.log ∧ resp.status = 500 ∧
              textOf (tokens resp.body) (str% "h2") = msg) ∨
            (a.repo ∉ cmd.repos ∧ resp.status = 500) ∨
            ∃ id diff cached t org, x = .inr id ∧ Entry.answered id a (.ok diff) cached t ∈ st.conf.sh.log ∧
              getOriginOrg (m.origin (cmd.root.join n)) = .ok org ∧ resp.status = 200 ∧
              comparePage s.srv.build s.version s.names org a diff cached = .ok resp.body) := by
  obtain ⟨e1, e2, e3, q, hq, ha⟩ := C83_compare s.u s.ent hv hr hf hg hp h1 h2 p1 p2
  refine ⟨q, hq, fun k x resp hk h => ⟨e1, e2, e3, _, rfl, ?_⟩⟩
  rcases compare_core hR hS hk h (C89_plain (h := .compare) rfl q) ha with
    ⟨hc, h5, _⟩ | ⟨id, msg, t, hx, hl, _, h5, ht⟩ | ⟨id, diff, cached, t, org, hx, hl, _, ho, h5, _, hpg⟩
  · exact .inr (.inl ⟨hc, h5⟩)
  · exact .inl ⟨id, msg, t, hx, hl, h5, ht⟩
  · exact .inr (.inr ⟨id, diff, cached, t, org, hx, hl, ho, h5, hpg⟩)

/-- First example of the error page. -/
def linkFirst : Str :=
  str% "/compare?old=768bd6655577dbfda140b40fdd4ca16700fcf589&new=b6770460668a7c3ef8df0ac0f3376e1f917a17e8&threshold=10&unit=weight&repo=polkadot&path_pattern=runtime/kusama/src/weights/*.rs&method=guess-worst&ignore_errors=false#runtime/kusama/src/weights/pallet_election_provider_multi_phase.rs.create_snapshot_internal"

/-- Second example of the error page. -/
def linkSecond : Str :=
  str% "/compare?old=v0.9.19&new=v0.9.20&threshold=30&unit=time&repo=polkadot&path_pattern=runtime/.*/src/weights/.*/.*rs&method=guess-worst&ignore_errors=true"

/-- Third example of the error page. -/
def linkThird : Str :=
  str% "/compare?old=0345460197179a9f2b3a6310be99360aec69d513&new=644e59a35322a1e5d69f1e7220cb14150b476ff8&threshold=15&unit=weight&repo=substrate&path_pattern=frame/*/src/weights.rs&method=guess-worst&ignore_errors=true"

/-- The links of the error page that lead back to the site. -/
def exampleLinks : List Str := [linkFirst, linkSecond, linkThird]

theorem linksIn_append (a b : List Token) : linksIn (a ++ b) = linksIn a ++ linksIn b := List.filterMap_append

theorem linksIn_chars (s : Str) : linksIn (s.map .char) = [] := by
  induction s with
  | nil => rfl
  | cons c s ih => exact ih

/-- C89: whatever the message, the error page has the same links, one to the documentation and three to the site. -/
theorem C89_error_links (msg : Str) : linksIn (tokens (errorPage msg)) =
    str% "https://github.com/ggwpez/substrate-weight-compare#config-options" :: exampleLinks := by
  rw [error_tokens, linksIn_append, linksIn_append, linksIn_chars]
  decide +kernel

theorem understood (u : Utf8Lossy) (ent : Entities) {href : Str} (ps : List (Str × Str)) {a : CompareArgs}
    (hn : (follow href).query = (rawQuery ps).flatMap sendChar) (h1 : ∀ p ∈ ps, PlainName p.1 ∧ UrlSafe p.2) (h2 : readArgs (ps.map arrives) = some a)
    (e1 : '&' ∉ a.new) (e2 : '&' ∉ a.old) (e3 : '&' ∉ a.pathPattern) : requestArgs u ent (follow href).query = some a := by
  unfold requestArgs parseQuery
  rw [hn, C69_spelled u (send_raw h1), h2, Option.map_some, ent.decode_plain _ e1, ent.decode_plain _ e2, ent.decode_plain _ e3]

/-- C89: the server understands all examples of its error page. -/
theorem C89_examples (u : Utf8Lossy) (ent : Entities) : (∀ href ∈ exampleLinks, Requests (follow href) (str% "/compare")) ∧
    exampleLinks.map (fun href => requestArgs u ent (follow href).query) =
      [some
          { old := str% "768bd6655577dbfda140b40fdd4ca16700fcf589", new := str% "b6770460668a7c3ef8df0ac0f3376e1f917a17e8", repo := str% "polkadot",
            pathPattern := str% "runtime/kusama/src/weights/*.rs", extrinsic := none, pallet := none, ignoreErrors := false, threshold := 10, unit := .time,
            gitPull := none, method := .guessWorst },
        some
          { old := str% "v0.9.19", new := str% "v0.9.20", repo := str% "polkadot", pathPattern := str% "runtime/.*/src/weights/.*/.*rs",
            extrinsic := none, pallet := none, ignoreErrors := true, threshold := 30, unit := .time, gitPull := none, method := .guessWorst },
        some
          { old := str% "0345460197179a9f2b3a6310be99360aec69d513", new := str% "644e59a35322a1e5d69f1e7220cb14150b476ff8", repo := str% "substrate",
            pathPattern := str% "frame/*/src/weights.rs", extrinsic := none, pallet := none, ignoreErrors := true, threshold := 15, unit := .time,
            gitPull := none, method := .guessWorst }] := by
  have hsafe : ∀ ps : List (Str × Str), ps.all (fun p => p.1.all (fun c => c ≠ '&' ∧ c ≠ '%' ∧ c ≠ '#' ∧ c ≠ '\t' ∧ c ≠ '\n' ∧ c ≠ '\r' ∧ c ≠ '=' ∧ c ≠ '+') &&
      p.2.all (fun c => c ≠ '&' ∧ c ≠ '%' ∧ c ≠ '#' ∧ c ≠ '\t' ∧ c ≠ '\n' ∧ c ≠ '\r')) = true → ∀ p ∈ ps, PlainName p.1 ∧ UrlSafe p.2 := by
    intro ps h p hp
    have := List.all_eq_true.1 h p hp
    rw [Bool.and_eq_true] at this
    exact ⟨plainName_of this.1, urlSafe_of this.2⟩
  constructor
  · intro href hh
    refine ⟨rfl, ?_⟩
    rw [show (follow href).path = utf8 (str% "/compare") by
      have hh : href ∈ [linkFirst, linkSecond, linkThird] := hh
      simp only [List.mem_cons, List.not_mem_nil, or_false] at hh
      rcases hh with rfl | rfl | rfl <;> decide +kernel]
    exact writes_plain (by decide)
  · show [requestArgs u ent (follow linkFirst).query, requestArgs u ent (follow linkSecond).query, requestArgs u ent (follow linkThird).query] = _
    congr 1
    rotate_left
    congr 1
    rotate_left
    congr 1
    rotate_left
    · exact understood u ent [(str% "old", str% "768bd6655577dbfda140b40fdd4ca16700fcf589"), (str% "new", str% "b6770460668a7c3ef8df0ac0f3376e1f917a17e8"),
        (str% "threshold", str% "10"), (str% "unit", str% "weight"), (str% "repo", str% "polkadot"),
        (str% "path_pattern", str% "runtime/kusama/src/weights/*.rs"), (str% "method", str% "guess-worst"), (str% "ignore_errors", str% "false")]
        (by decide +kernel) (hsafe _ (by decide +kernel)) (by decide +kernel) (by decide) (by decide) (by decide)
    · exact understood u ent [(str% "old", str% "v0.9.19"), (str% "new", str% "v0.9.20"), (str% "threshold", str% "30"), (str% "unit", str% "time"),
        (str% "repo", str% "polkadot"), (str% "path_pattern", str% "runtime/.*/src/weights/.*/.*rs"), (str% "method", str% "guess-worst"),
        (str% "ignore_errors", str% "true")]
        (by decide +kernel) (hsafe _ (by decide +kernel)) (by decide +kernel) (by decide) (by decide) (by decide)
    · exact understood u ent [(str% "old", str% "0345460197179a9f2b3a6310be99360aec69d513"), (str% "new", str% "644e59a35322a1e5d69f1e7220cb14150b476ff8"),
        (str% "threshold", str% "15"), (str% "unit", str% "weight"), (str% "repo", str% "substrate"),
        (str% "path_pattern", str% "frame/*/src/weights.rs"), (str% "method", str% "guess-worst"), (str% "ignore_errors", str% "true")]
        (by decide +kernel) (hsafe _ (by decide +kernel)) (by decide +kernel) (by decide) (by decide) (by decide)

/-- C89: without `--repos` the server only knows `polkadot`. -/
theorem C89_default {s : Site} {m : Machine} {args : List Str} {cmd : ServerCmd} (hS : s.Started m args cmd)
    (hn : ∀ g, Written serverArguments g args → ∀ vs, Given.values (str% "repos") vs ∉ g) : cmd.repos = [str% "polkadot"] ∧
    ∀ n, n ∈ s.names ↔ n = str% "polkadot" := by
  obtain ⟨repos, h, _⟩ := id hS
  obtain ⟨⟨g, hw, hs⟩, _⟩ := (C89_starts m args cmd).1 ⟨repos, h⟩
  have hr : cmd.repos = [str% "polkadot"] := by
    rcases hs.repos with h | ⟨⟨vs, h⟩, _⟩
    · exact h.2
    · exact absurd h (hn g hw vs)
  exact ⟨hr, fun n => by rw [(C89_serves hS n).1, hr, List.mem_singleton]⟩

/-- C89 (finding): with its default arguments the server does not know the repository of the last example of its error page: whoever follows the link gets
to the error page again. -/
theorem C89_example_unknown {W : World} {s : Site} {st : SiteState W.State} (hR : s.Reachable W st) {m : Machine} {cmd : ServerCmd}
    (hS : s.Started m [] cmd) {k : Nat} {x : Response ⊕ Nat} {href : Str} (hh : exampleLinks[2]? = some href)
    (hk : st.inbox[k]? = some (follow href, x)) {resp : Response} (h : s.Replied st k resp) : resp.status = 500 ∧
    textOf (tokens resp.body) (str% "h2") = str% "Unknown repo organization 'substrate'" := by
  have hd := (C89_default hS fun g hw vs hg => by cases hw; cases hg).1
  have ⟨hreq, hargs⟩ := C89_examples s.u s.ent
  have hmem : href ∈ exampleLinks := List.mem_of_getElem? hh
  have ha := congrArg (·[2]?) hargs
  rw [List.getElem?_map, hh] at ha
  have ha := Option.some.inj ha
  rcases compare_core hR hS hk h (hreq href hmem) ha with ⟨_, h5, ht⟩ | ⟨_, _, _, _, _, hc, _⟩ | ⟨_, _, _, _, _, _, _, hc, _⟩
  · exact ⟨h5, ht⟩
  · rw [hd] at hc; exact absurd (List.mem_singleton.1 hc) (by decide)
  · rw [hd] at hc; exact absurd (List.mem_singleton.1 hc) (by decide)

/-! ### A concrete case -/

/-- The command line of the example. -/
def exSiteLine : List Str := [str% "--root", str% "r", str% "--repos", str% "repo"]

/-- Its machine: everything exists, and everything comes from `github.com/me`. -/
def exMachine : Machine := ⟨fun _ => .exited true (str% "https://github.com/me/repo\n") [] true, fun _ => true, fun _ => true, fun c => 32 ≤ c.toNat && c.toNat < 127⟩

/-- Its site. -/
noncomputable def exSite : Site where
  srv := { exServer ⟨rustSyn, asciiClass⟩ with repos := fun r => if r = str% "repo" then some [.normal (str% "r"), .normal (str% "repo")] else none }
  entries := [⟨str% "repo", [.normal (str% "r"), .normal (str% "repo")], str% "me"⟩]
  version := str% "1.0+ab"
  badge _ := []
  files _ _ := ⟨404, [], []⟩
  queryError _ := str% "missing field"
  badQuery _ := str% "duplicate field"
  ioStatus _ := 500
  ioStatus_mem _ := .inr (.inr rfl)
  u := strictUtf8
  ent := ⟨id, fun _ _ => rfl⟩

theorem exSite_started : ∃ cmd, exSite.Started exMachine exSiteLine cmd := by
  refine ⟨⟨[.normal (str% "r")], [.normal (str% "web"), .normal (str% "static")], [str% "repo"], str% "127.0.0.1", 8080, none, none⟩,
    [(str% "repo", ⟨str% "repo", [.normal (str% "r"), .normal (str% "repo")], str% "me"⟩)], ?_, ?_, ?_, ?_⟩
  · rfl
  · intro n
    show (if n = str% "repo" then _ else _) = _
    by_cases h : n = str% "repo"
    · subst h; rfl
    · rw [if_neg h, List.lookup, show (n == str% "repo") = false from beq_eq_false_iff_ne.2 h]
      rfl
  · intro r
    show r ∈ [_] ↔ _
    rw [List.mem_singleton]
    constructor
    · rintro rfl; rfl
    · intro h
      rw [List.lookup] at h
      split at h
      · exact (Option.some.inj h).symm
      · cases h
  · exact List.nodup_singleton _

/-- The requests of the example: one for the branches with an unusual spelling, one that leads nowhere, and two for the version. -/
def exRequests : List HttpRequest :=
  [⟨str% "GET", utf8 (str% "/br%61nches"), utf8 (str% "repo=r%65po")⟩, ⟨str% "GET", utf8 (str% "/branches/"), []⟩,
    ⟨str% "GET", utf8 (str% "/version"), utf8 (str% "is=1.0+ab")⟩, ⟨str% "POST", utf8 (str% "/version"), []⟩]

example : Requests ⟨str% "GET", utf8 (str% "/br%61nches"), utf8 (str% "repo=r%65po")⟩ (str% "/branches") := (C89_route _ (h := .branches) rfl).1 (by decide +kernel)
example : exRequests.map route = [some .branches, none, some .version, none] := by decide +kernel
example : route ⟨str% "GET", utf8 (str% "/static/table.js"), []⟩ = some (.files (utf8 (str% "/table.js"))) := by decide +kernel
example : route ⟨str% "GET", utf8 (str% "/static%2Ftable.js"), []⟩ = none := by decide +kernel
example : route ⟨str% "GET", utf8 (str% "/repos"), []⟩ = none := by decide +kernel
example : route ⟨str% "GET", utf8 (str% "/favicon.ico"), []⟩ = none := by decide +kernel

theorem exSite_spelled : SpellsPairs [(str% "repo", str% "repo")] (utf8 (str% "repo=r%65po")) := by
  have p : ∀ {eq : Bool} {b : UInt8}, b ≠ 0x26 ∧ b ≠ 0x2B ∧ b ≠ 0x25 ∧ b ≠ 0x3D → ∀ {s u}, Spells eq s u → Spells eq (b :: s) (b :: u) :=
    fun h _ _ hs => .cons (.plain h.1 h.2.1 h.2.2.1 fun e => absurd e h.2.2.2) hs
  refine .one ⟨utf8 (str% "repo"), utf8 (str% "r%65po"), ?_, ?_, by decide⟩
  · exact p (b := 0x72) (by decide) (p (b := 0x65) (by decide) (p (b := 0x70) (by decide) (p (b := 0x6F) (by decide) .nil)))
  · exact p (b := 0x72) (by decide) (.cons (b := 0x65) (t := [0x25, 0x36, 0x35]) (.hex (.inl (by decide)) (.inl (by decide)))
      (p (b := 0x70) (by decide) (p (b := 0x6F) (by decide) .nil)))

/-- All hypotheses of `C89_branches` are met, and the answer is a list: the request comes, is worked on and answered. -/
theorem C89_example : ∃ cmd st r x resp, exSite.Started exMachine exSiteLine cmd ∧ exSite.Reachable exListWorld st ∧ st.inbox[1]? = some (r, x) ∧
    exSite.Replied st 1 resp ∧ Requests r (str% "/branches") ∧ SpellsPairs [(str% "repo", str% "repo")] r.query ∧ resp.status = 200 ∧
    readBranches resp.body = some exList := by
  obtain ⟨cmd, hS⟩ := exSite_started
  have hq : parseBranchQuery strictUtf8 (utf8 (str% "repo=r%65po")) = some (str% "repo", false) :=
    (C84_query _ exSite_spelled _ _).2 ⟨⟨[], [], rfl, by simp, by simp⟩, .inr ⟨by simp [Never], rfl⟩⟩
  have hro : route ⟨str% "GET", utf8 (str% "/br%61nches"), utf8 (str% "repo=r%65po")⟩ = some .branches := by decide +kernel
  have hacc : exSite.accept ⟨str% "GET", utf8 (str% "/br%61nches"), utf8 (str% "repo=r%65po")⟩ = .run (.branches (str% "repo") false) := by
    unfold Site.accept
    rw [hro]
    dsimp only
    rw [show exSite.u = strictUtf8 from rfl, hq]
  have hnot : exSite.accept ⟨str% "GET", utf8 (str% "/branches/"), []⟩ = .answer ⟨404, [], []⟩ := by
    unfold Site.accept
    rw [show route _ = none by decide +kernel]
  have hp : (Prog.done (expectListed (.exited true (output exRefs) [] true)) >>= fun stdout => Prog.done (parseBranches stdout)) =
      (.done (.ok exList) : Prog (List (Str × Str))) := by
    show Prog.done (parseBranches (output exRefs)) = _
    rw [show parseBranches (output exRefs) = .ok exList by decide +kernel]
  have h0 : exSite.Reachable exListWorld _ := .step (.init (fun _ => ()) 0) (.now _ hnot)
  have h1 := Site.Reachable.step h0 (.later _ hacc)
  have h2 := Site.Reachable.step h1 (.thread 0 ⟨_, _, _, rfl, .branchTake ⟨rfl, fun _ => rfl⟩, rfl⟩)
  have h3 := Site.Reachable.step h2 (.thread 0 ⟨_, _, _, rfl, .branchWork (exList_run exListWorld () _ (by decide) rfl), rfl⟩)
  have h4 := Site.Reachable.step h3 (.thread 0 ⟨.branching (str% "repo") (.done (.ok exList)), _, _, by rw [← hp]; rfl, .branchOk, rfl⟩)
  exact ⟨cmd, _, _, _, _, hS, h4, rfl, .listed rfl (List.mem_append_right _ List.mem_cons_self), (C89_route _ (h := .branches) rfl).1 hro,
    exSite_spelled, rfl, C84_read _⟩

end Swc
