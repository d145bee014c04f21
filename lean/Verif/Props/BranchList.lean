/-
C84: from the references that git prints to the lists of the start page, through the request, the handler, the JSON text and the script.
-/
import Verif.Spec.BranchList
import Verif.Props.BranchText
import Verif.Props.StartPage
import Verif.Props.RequestPage

namespace Swc

open Spec

/-! ### The request -/

theorem visitBranch_fold (ps : List (Str × Str)) (s t : BranchSlots) :
    ps.foldlM visitBranchPair s = some t ↔
      ps.foldlM (visitField (str% "repo") some) s.repo = some t.repo ∧ ps.foldlM (visitField (str% "fetch") readBool) s.fetch = some t.fetch := by
  induction ps generalizing s with
  | nil =>
    obtain ⟨s1, s2⟩ := s
    obtain ⟨t1, t2⟩ := t
    simp
  | cons p l ih =>
    simp only [List.foldlM_cons, Option.bind_eq_bind, Option.bind_eq_some_iff, ih]
    constructor
    · rintro ⟨x, hx, h⟩
      unfold visitBranchPair at hx
      simp only [Option.bind_eq_bind, Option.bind_eq_some_iff] at hx
      obtain ⟨x1, e1, x2, e2, hx⟩ := hx
      cases hx
      exact ⟨⟨_, e1, h.1⟩, ⟨_, e2, h.2⟩⟩
    · rintro ⟨⟨x1, e1, h1⟩, ⟨x2, e2, h2⟩⟩
      refine ⟨⟨x1, x2⟩, ?_, h1, h2⟩
      unfold visitBranchPair
      rw [e1, e2]
      rfl

/-- C84: however it is spelled, a query for branches is accepted exactly if it names one repository and `fetch` at most once, as `true` or `false`; it
asks to fetch exactly if it is `true`. -/
theorem C84_query (u : Utf8Lossy) {ps : List (Str × Str)} {q : Bytes} (h : SpellsPairs ps q) (r : Str) (f : Bool) :
    parseBranchQuery u q = some (r, f) ↔ AsksBranches ps r f := by
  unfold parseBranchQuery
  rw [C69_spelled u h]
  simp only [Option.bind_eq_bind, Option.bind_eq_some_iff, visitBranch_fold, visitField_fold]
  constructor
  · rintro ⟨⟨s1, s2⟩, ⟨h1, h2⟩, x, rfl, hf⟩
    obtain ⟨rfl, hg⟩ := Prod.mk.inj (Option.some.inj hf)
    clear hf
    refine ⟨(slot_str ..).1 h1, ?_⟩
    have h2 := (slot_maybe readBool_iff ..).1 h2
    cases s2 with
    | none => exact .inr ⟨h2, hg.symm⟩
    | some b =>
      obtain ⟨v, h3, rfl⟩ := h2
      cases hg
      exact .inl h3
  · rintro ⟨h1, h2 | ⟨h2, rfl⟩⟩
    · exact ⟨⟨some r, some f⟩, ⟨(slot_str ..).2 h1, (slot_maybe readBool_iff ..).2 ⟨_, h2, rfl⟩⟩, r, rfl, rfl⟩
    · exact ⟨⟨some r, none⟩, ⟨(slot_str ..).2 h1, (slot_maybe readBool_iff ..).2 h2⟩, r, rfl, rfl⟩

/-- The pairs of the request of the start page. -/
def branchPairs (repo : Str) (f : Bool) : List (Str × Str) := [(str% "repo", repo), (str% "fetch", if f then str% "true" else str% "false")]

/-- C84: the start page asks for the branches of the selected repository, fetching them if that is wanted. -/
theorem C84_asked (u : Utf8Lossy) {repo : Str} (h : UrlSafe repo) (hp : '+' ∉ repo) (f : Bool) :
    parseBranchQuery u (branchQuery repo f) = some (repo, f) := by
  have hall : ∀ p ∈ branchPairs repo f, PlainName p.1 ∧ UrlSafe p.2 := by
    intro p hp'
    simp only [branchPairs, List.mem_cons, List.not_mem_nil, or_false] at hp'
    rcases hp' with rfl | rfl
    · exact ⟨plainName_of (s := str% "repo") (by decide), h⟩
    · exact ⟨plainName_of (s := str% "fetch") (by decide), by cases f <;> exact urlSafe_of (by decide)⟩
  have hraw : str% "repo=" ++ repo ++ str% "&fetch=" ++ (if f then str% "true" else str% "false") = rawQuery (branchPairs repo f) := by
    show _ = str% "repo" ++ '=' :: repo ++ '&' :: (str% "fetch" ++ '=' :: _)
    simp [List.append_assoc]
  have hlast : ∀ c, (str% "repo=" ++ repo ++ str% "&fetch=" ++ (if f then str% "true" else str% "false")).getLast? = some c → 0x20 < c.toNat := by
    intro c hc
    rw [List.getLast?_append] at hc
    cases f
    · simp only [Bool.false_eq_true, if_false, show (str% "false").getLast? = some 'e' by decide, Option.some_or, Option.some.injEq] at hc
      subst hc; decide
    · simp only [if_true, show (str% "true").getLast? = some 'e' by decide, Option.some_or, Option.some.injEq] at hc
      subst hc; decide
  unfold branchQuery
  rw [navigate_eq (by rw [hraw]; exact raw_clean hall) hlast, hraw, C84_query u (send_raw hall)]
  have e : (branchPairs repo f).map arrives = branchPairs repo f := by
    have e1 : arrives (str% "repo", repo) = (str% "repo", repo) := by rw [arrives, unplus_plain hp]
    rw [branchPairs, List.map, List.map, e1]
    cases f <;> rfl
  rw [e]
  refine ⟨⟨[], _, rfl, by simp, ?_⟩, .inl ⟨[(str% "repo", repo)], [], rfl, ?_, by simp⟩⟩
  · intro p hp; rw [List.mem_singleton.1 hp]; show str% "fetch" ≠ str% "repo"; decide
  · intro p hp; rw [List.mem_singleton.1 hp]; show str% "repo" ≠ str% "fetch"; decide

/-! ### The text of the answer -/

theorem hex_lowerHex : ∀ n, n < 16 → Json.hex (lowerHex n) = some n := by decide

theorem hex4_u00 {n : Nat} (h : n < 0x20) (r : Str) : Json.hex4 ('0' :: '0' :: lowerHex (n / 16) :: lowerHex (n % 16) :: r) = some (n, r) := by
  unfold Json.hex4
  simp only
  rw [show Json.hex '0' = some 0 by decide, hex_lowerHex (n / 16) (by omega), hex_lowerHex (n % 16) (by omega)]
  simp only [Option.some.injEq, Prod.mk.injEq, and_true]
  omega

theorem stringRest_escape {n : Nat} {e x : Char} (hu : e ≠ 'u') (he : Json.escape e = some x) (r : Str) :
    Json.stringRest (n + 1) ('\\' :: e :: r) = (Json.stringRest n r).map fun p => (x :: p.1, p.2) := by
  rw [Json.stringRest, if_neg (by decide), if_pos rfl]
  simp only [if_neg hu, he]

theorem char_of_toNat {c : Char} {n : Nat} (h : c.toNat = n) : c = Char.ofNat n := by rw [← h, Char.ofNat_toNat]

/-- One character is read back. -/
theorem stringRest_char (c : Char) (n : Nat) (r : Str) :
    Json.stringRest (n + 1) (jsonChar c ++ r) = (Json.stringRest n r).map fun p => (c :: p.1, p.2) := by
  unfold jsonChar
  split
  · rename_i h; subst h; exact stringRest_escape (by decide) (by decide) r
  split
  · rename_i h; subst h; exact stringRest_escape (by decide) (by decide) r
  split
  · rename_i h; rw [char_of_toNat h]; exact stringRest_escape (by decide) (by decide) r
  split
  · rename_i h; rw [char_of_toNat h]; exact stringRest_escape (by decide) (by decide) r
  split
  · rename_i h; rw [char_of_toNat h]; exact stringRest_escape (by decide) (by decide) r
  split
  · rename_i h; rw [char_of_toNat h]; exact stringRest_escape (by decide) (by decide) r
  split
  · rename_i h; rw [char_of_toNat h]; exact stringRest_escape (by decide) (by decide) r
  split
  · rename_i h
    show Json.stringRest (n + 1) ('\\' :: 'u' :: '0' :: '0' :: lowerHex (c.toNat / 16) :: lowerHex (c.toNat % 16) :: r) = _
    rw [Json.stringRest, if_neg (by decide), if_pos rfl]
    simp only [if_true, hex4_u00 h]
    unfold Json.codePoint
    rw [if_neg (by omega), if_neg (by omega), Char.ofNat_toNat]
  · rename_i h1 h2 _ _ _ _ _ h3
    rw [List.singleton_append, Json.stringRest.eq_def]
    simp only [if_neg h1, if_neg h2, if_neg h3]

/-- A string is read back. -/
theorem stringRest_string (s r : Str) (n : Nat) (hn : s.length < n) : Json.stringRest n (s.flatMap jsonChar ++ '"' :: r) = some (s, r) := by
  induction s generalizing n with
  | nil =>
    cases n with
    | zero => cases hn
    | succ n => rfl
  | cons c s ih =>
    cases n with
    | zero => cases hn
    | succ n =>
      rw [List.flatMap_cons, List.append_assoc, stringRest_char, ih n (by simpa using hn)]
      rfl

theorem jsonChar_length (c : Char) : 1 ≤ (jsonChar c).length := by
  unfold jsonChar
  repeat' split
  all_goals simp

theorem flatMap_jsonChar_length (s : Str) : s.length ≤ (s.flatMap jsonChar).length := by
  induction s with
  | nil => simp
  | cons c s ih =>
    have := jsonChar_length c
    rw [List.flatMap_cons, List.length_append, List.length_cons]; omega

theorem value_string (s r : Str) (n : Nat) : Json.value (n + 1) (jsonString s ++ r) = some (.str s, r) := by
  have hs : Json.skip (jsonString s ++ r) = '"' :: (s.flatMap jsonChar ++ '"' :: r) := by
    unfold jsonString Json.skip
    rw [List.cons_append, List.append_assoc]
    rfl
  rw [Json.value, hs]
  simp only
  rw [stringRest_string s r _ (by have := flatMap_jsonChar_length s; rw [List.length_append, List.length_cons]; omega)]
  rfl

/-- A pair as a value. -/
def pairValue (p : Str × Str) : Json := .arr [.str p.1, .str p.2]

theorem value_pair (p : Str × Str) (r : Str) (n : Nat) : Json.value (n + 4) (jsonPair p ++ r) = some (pairValue p, r) := by
  have hs : Json.skip (jsonPair p ++ r) = '[' :: (jsonString p.1 ++ (',' :: (jsonString p.2 ++ ']' :: r))) := by
    unfold jsonPair Json.skip
    simp only [List.cons_append, List.append_assoc]
    rfl
  have hs2 : Json.skip (jsonString p.1 ++ (',' :: (jsonString p.2 ++ ']' :: r))) = jsonString p.1 ++ (',' :: (jsonString p.2 ++ ']' :: r)) := rfl
  rw [Json.value, hs]
  simp only [hs2]
  show ((Json.elements (n + 3) (jsonString p.1 ++ (',' :: (jsonString p.2 ++ ']' :: r)))).map fun q => (Json.arr q.1, q.2)) = _
  rw [Json.elements, value_string]
  simp only
  rw [show Json.skip (',' :: (jsonString p.2 ++ ']' :: r)) = ',' :: (jsonString p.2 ++ ']' :: r) from rfl]
  simp only
  rw [Json.elements, value_string]
  simp only
  rw [show Json.skip (']' :: r) = ']' :: r from rfl]
  rfl

theorem elements_pairs (p : Str × Str) (l : List (Str × Str)) (r : Str) (n : Nat) (hn : l.length + 5 ≤ n) :
    Json.elements n (jsonElements ((p :: l).map jsonPair) ++ ']' :: r) = some ((p :: l).map pairValue, r) := by
  induction l generalizing p n with
  | nil =>
    obtain ⟨m, rfl⟩ : ∃ m, n = m + 4 + 1 := ⟨n - 5, by simp at hn; omega⟩
    rw [List.map_cons, List.map_nil, jsonElements, Json.elements, value_pair]
    rfl
  | cons q l ih =>
    obtain ⟨m, rfl⟩ : ∃ m, n = m + 4 + 1 := ⟨n - 5, by simp at hn; omega⟩
    rw [List.map_cons, List.map_cons, jsonElements, List.append_assoc, Json.elements, value_pair]
    simp only
    rw [List.cons_append, show ∀ x, Json.skip (',' :: x) = ',' :: x from fun _ => rfl]
    simp only
    rw [← List.map_cons, ih q (m + 4) (by simp at hn ⊢; omega)]
    rfl

theorem jsonElements_length (l : List (Str × Str)) : l.length ≤ (jsonElements (l.map jsonPair)).length := by
  induction l with
  | nil => simp
  | cons p l ih =>
    cases l with
    | nil => simp [jsonElements, jsonPair]
    | cons q l =>
      rw [List.map_cons, List.map_cons, jsonElements, List.length_append, List.length_cons, ← List.map_cons]
      simp only [List.length_cons] at ih ⊢
      omega

/-- C84: the text of the answer, read as JSON, is an object with the list of pairs as its only member, whatever characters names contain. -/
theorem C84_json (l : List (Str × Str)) :
    Json.parse (branchesBody l) = some (.obj [(str% "branch", .arr (l.map fun p => .arr [.str p.1, .str p.2]))]) := by
  have hlen := jsonElements_length l
  obtain ⟨n, hn, hle⟩ : ∃ n, 2 * (branchesBody l).length + 1 = n + 2 + 1 ∧ l.length + 6 ≤ n := by
    refine ⟨2 * (branchesBody l).length - 2, ?_, ?_⟩ <;> unfold branchesBody <;> simp only [List.length_append] <;> simp <;> omega
  have hv : Json.value (n + 2 + 1) (branchesBody l) = some (.obj [(str% "branch", .arr (l.map pairValue))], []) := by
    have e : branchesBody l = '{' :: '"' :: ((str% "branch").flatMap jsonChar ++ '"' :: ':' :: '[' :: (jsonElements (l.map jsonPair) ++ [']', '}'])) := rfl
    rw [e, Json.value]
    rw [show ∀ x, Json.skip ('{' :: x) = '{' :: x from fun _ => rfl]
    simp only
    show ((Json.members (n + 2) ('"' :: _)).map fun q => (Json.obj q.1, q.2)) = _
    rw [Json.members, show ∀ x, Json.skip ('"' :: x) = '"' :: x from fun _ => rfl]
    simp only
    rw [stringRest_string _ _ _ (by have := flatMap_jsonChar_length (str% "branch"); rw [List.length_append]; omega)]
    simp only
    rw [show ∀ x, Json.skip (':' :: x) = ':' :: x from fun _ => rfl]
    simp only
    have hval : Json.value (n + 1) ('[' :: (jsonElements (l.map jsonPair) ++ [']', '}'])) = some (.arr (l.map pairValue), ['}']) := by
      rw [Json.value, show ∀ x, Json.skip ('[' :: x) = '[' :: x from fun _ => rfl]
      simp only
      cases l with
      | nil => rfl
      | cons p l =>
        obtain ⟨t, ht⟩ : ∃ t, jsonElements ((p :: l).map jsonPair) ++ [']', '}'] = '[' :: t := by
          cases l <;> exact ⟨_, rfl⟩
        have := elements_pairs p l ['}'] n (by simp at hle; omega)
        rw [ht] at this ⊢
        show ((Json.elements n ('[' :: t)).map fun q => (Json.arr q.1, q.2)) = _
        rw [this]
        rfl
    rw [hval]
    rfl
  unfold Json.parse
  rw [hn, hv]
  rfl

/-- C84: the script of the start page finds in the answer exactly the pairs the server has put into it. -/
theorem C84_read (l : List (Str × Str)) : readBranches (branchesBody l) = some l := by
  unfold readBranches
  rw [C84_json]
  show (List.mapM _ (l.map fun p => Json.arr [.str p.1, .str p.2])) = some l
  induction l with
  | nil => rfl
  | cons p l ih =>
    rw [List.map_cons, List.mapM_cons, ih]
    rfl

/-! ### The handler -/

/-- If the program ends with a list, the list is what git printed in a state with the property `P`. -/
def FromGit (W : World) (P : W.State → Prop) : Prog (List (Str × Str)) → Prop
  | .done (.ok v) => ∃ s, P s ∧ ∃ stdout stderr utf8 s',
      W.git s [str% "ls-remote", str% "--tags", str% "--heads"] = (.exited true stdout stderr utf8, s') ∧ parseBranches stdout = .ok v
  | .done _ => True
  | .git args k => ∀ s, P s → FromGit W P (k (W.git s args).1)
  | .glob _ k => ∀ o, FromGit W P (k o)
  | .read _ k => ∀ o, FromGit W P (k o)

theorem fromGit_list {W : World} {P : W.State → Prop} :
    FromGit W P (gitP [str% "ls-remote", str% "--tags", str% "--heads"] >>= fun out => Prog.done (expectListed out) >>= fun stdout => .done (parseBranches stdout)) := by
  intro s hs
  show FromGit W P (Prog.andThen (.done (expectListed _)) _)
  cases hg : W.git s [str% "ls-remote", str% "--tags", str% "--heads"] with
  | mk o s' =>
    cases o with
    | spawnFailed e => trivial
    | exited ok stdout stderr utf8 =>
      cases ok with
      | false =>
        cases utf8 <;> trivial
      | true =>
        show FromGit W P (.done (parseBranches stdout))
        cases hp : parseBranches stdout with
        | ok v => exact ⟨s, hs, stdout, stderr, utf8, s', hg, hp⟩
        | err m => trivial
        | panic => trivial
        | diverge => trivial

theorem fromGit_branches {W : World} {P : W.State → Prop} (srv : Server) (r : Str) (f : Bool) : FromGit W P (branchesP srv r f) := by
  unfold branchesP
  split
  · trivial
  · cases f with
    | false => exact fromGit_list
    | true =>
      intro s hs
      show FromGit W P (Prog.andThen (Prog.done (expectFetched _)) _)
      cases expectFetched (W.git s [str% "fetch", str% "--all", str% "--prune", str% "--tags"]).1 with
      | ok _ => exact fromGit_list
      | err m => trivial
      | panic => trivial
      | diverge => trivial

theorem fromGit_step {W : World} {P : W.State → Prop} {p p' : Prog (List (Str × Str))} {s s' : W.State} (hp : FromGit W P p) (hs : P s)
    (h : p.step W s = some (p', s')) : FromGit W P p' := by
  cases p with
  | done r => cases h
  | git args k => cases h; exact hp _ hs
  | glob p k => cases h; exact hp _
  | read p k => cases h; exact hp _

/-- The states in which the repository can be while the server runs. -/
def RepoState (W : World) (srv : Server) (r : Str) (s : W.State) : Prop := ∃ c, Reachable W srv c ∧ c.sh.repo r = s

/-- What is known of a request for branches. -/
def KnownList (W : World) (srv : Server) : Pc W.State → Prop
  | .branching r p => FromGit W (RepoState W srv r) p ∧ (srv.repos r ≠ none ∨ ∃ m, p = .done (.err m))
  | _ => True

/-- What is known of the answers. -/
def KnownEntry (W : World) (srv : Server) : Entry W.State → Prop
  | .listed _ r (.ok v) => srv.repos r ≠ none ∧ ∃ stdout, Printed W srv r stdout ∧ parseBranches stdout = .ok v
  | _ => True

theorem known_step {W : World} {srv : Server} {c : Config W.State} (hc : Reachable W srv c) {id : Nat} {pc pc' : Pc W.State} {s' : Shared W.State}
    (h : Act1 W srv id pc c.sh pc' s') (hk : KnownList W srv pc) :
    KnownList W srv pc' ∧ ∃ es, s'.log = c.sh.log ++ es ∧ ∀ e ∈ es, KnownEntry W srv e := by
  generalize hsh : c.sh = sh at h
  cases h with
  | branchTake h =>
    refine ⟨⟨fromGit_branches _ _ _, ?_⟩, [], by simp [Shared.takeRead, Shared.setLock], by simp⟩
    unfold branchesP
    split
    · exact .inr ⟨_, rfl⟩
    · rename_i h; exact .inl (by rw [h]; exact fun h => nomatch h)
  | branchWork h =>
    refine ⟨⟨fromGit_step hk.1 ⟨c, hc, by rw [hsh]⟩ h, ?_⟩, [], by simp, by simp⟩
    rcases hk.2 with hk | ⟨m, rfl⟩
    · exact .inl hk
    · cases h
  | branchOk =>
    refine ⟨trivial, [_], rfl, ?_⟩
    intro e he
    rw [List.mem_singleton.1 he]
    obtain ⟨⟨s, ⟨c0, hc0, rfl⟩, stdout, stderr, utf8, s', hg, hp⟩, hk⟩ := hk
    refine ⟨?_, stdout, ⟨c0, hc0, stderr, utf8, s', hg⟩, hp⟩
    rcases hk with hk | ⟨m, hm⟩
    · exact hk
    · cases hm
  | branchErr => exact ⟨trivial, [_], rfl, fun e he => by rw [List.mem_singleton.1 he]; trivial⟩
  | branchPanic => exact ⟨trivial, [_], rfl, fun e he => by rw [List.mem_singleton.1 he]; trivial⟩
  | @scanEnd next i s hi =>
    refine ⟨by cases next <;> trivial, [], ?_, by simp⟩
    split <;> simp [Shared.dropRead, Shared.setLock]
  | scanDrop =>
    refine ⟨trivial, [], ?_, by simp⟩
    split <;> simp [Shared.dropRead, Shared.setLock]
  | unknown h => exact ⟨trivial, [_], rfl, fun e he => by rw [List.mem_singleton.1 he]; trivial⟩
  | lockPoisoned h => exact ⟨trivial, [_], rfl, fun e he => by rw [List.mem_singleton.1 he]; trivial⟩
  | hit h => exact ⟨trivial, [_], rfl, fun e he => by rw [List.mem_singleton.1 he]; trivial⟩
  | storeOk =>
    refine ⟨trivial, [_, _], rfl, fun e he => ?_⟩
    rcases List.mem_cons.1 he with rfl | he
    · trivial
    · rw [List.mem_singleton.1 he]; trivial
  | storeErr =>
    refine ⟨trivial, [_, _], rfl, fun e he => ?_⟩
    rcases List.mem_cons.1 he with rfl | he
    · trivial
    · rw [List.mem_singleton.1 he]; trivial
  | storePanic =>
    refine ⟨trivial, [_, _], rfl, fun e he => ?_⟩
    rcases List.mem_cons.1 he with rfl | he
    · trivial
    · rw [List.mem_singleton.1 he]; trivial
  | _ => exact ⟨trivial, [], by simp [Shared.takeRead, Shared.dropRead, Shared.takeWrite, Shared.dropWrite, Shared.wait, Shared.setLock], by simp⟩

theorem known_list {W : World} {srv : Server} {c : Config W.State} (h : Reachable W srv c) :
    (∀ (i : Nat) pc, c.threads[i]? = some pc → KnownList W srv pc) ∧ ∀ e ∈ c.sh.log, KnownEntry W srv e := by
  induction h with
  | init repo clock => exact ⟨fun i pc h => by simp [initial] at h, fun e h => by simp [initial] at h⟩
  | @step c c' hc hs ih =>
    cases hs with
    | tick n => exact ih
    | arrive r =>
      refine ⟨fun i pc h => ?_, ih.2⟩
      dsimp only at h
      rw [List.getElem?_append] at h
      split at h
      · exact ih.1 i pc h
      · rw [List.getElem?_singleton] at h
        split at h
        · cases h; cases r <;> trivial
        · cases h
    | thread j hj =>
      obtain ⟨pc0, pc', s', h0, ha, rfl⟩ := hj
      obtain ⟨h1, es, h2, h3⟩ := known_step hc ha (ih.1 _ _ h0)
      refine ⟨fun i pc h => ?_, fun e he => ?_⟩
      · dsimp only at h
        rw [List.getElem?_set] at h
        split at h
        · split at h
          · cases h; exact h1
          · cases h
        · exact ih.1 i pc h
      · dsimp only at he
        rw [h2] at he
        rcases List.mem_append.1 he with he | he
        · exact ih.2 e he
        · exact h3 e he

/-- C84: whatever requests the server handles at the same time, a list of branches it answers is what git printed, while the server ran, in the
repository that was asked for. -/
theorem C84_listed {W : World} {srv : Server} {c : Config W.State} (h : Reachable W srv c) {id : Nat} {r : Str} {v : List (Str × Str)}
    (hl : .listed id r (.ok v) ∈ c.sh.log) : srv.repos r ≠ none ∧ ∃ stdout, Printed W srv r stdout ∧ Lists stdout v := by
  obtain ⟨h1, stdout, h2, h3⟩ := (known_list h).2 _ hl
  exact ⟨h1, stdout, h2, ((C62_exact _).1 _).1 h3⟩

/-- C84: if git prints well-formed listings, the answer has one pair of name and short hash for each reference it printed, except for those with `{`
or `^`. -/
theorem C84_references {W : World} (hg : GitLists W) {srv : Server} {c : Config W.State} (h : Reachable W srv c) {id : Nat} {r : Str}
    {v : List (Str × Str)} (hl : .listed id r (.ok v) ∈ c.sh.log) :
    ∃ rs, Printed W srv r (output rs) ∧ v = (rs.filter Ref.wanted).map fun r => (r.name, r.hash.take 12) := by
  obtain ⟨_, stdout, hp, hv⟩ := C84_listed h hl
  rw [← (C62_exact _).1] at hv
  obtain ⟨c0, hc0, stderr, utf8, s', hgit⟩ := _root_.id hp
  obtain ⟨rs, rfl, hw⟩ := hg _ _ _ _ _ hgit
  rw [C62_well_formed hw] at hv
  cases hv
  exact ⟨rs, hp, rfl⟩

/-- The visitor's answers are those of the server: the request of the page, as understood by the server, and the text of the answer, as understood by
the page. -/
def FromServer {σ : Type} (u : Utf8Lossy) (log : List (Entry σ)) (tr : List PageEvent) : Prop :=
  ∀ i r list, .answer i r list ∈ tr → ∃ id f r' v, parseBranchQuery u (branchQuery r f) = some (r', f) ∧ .listed id r' (.ok v) ∈ log ∧
    readBranches (branchesBody v) = some list

/-- C84: from git to the page.  If git prints well-formed listings, the user waits for the lists and no request fails, then, whenever no request is
open, the page offers the names of the references that git printed in the selected repository, all but those with `{` or `^`, in order. -/
theorem C84_page (u : Utf8Lossy) {W : World} (hg : GitLists W) {srv : Server} {c : Config W.State} (h : Reachable W srv c) {served : List Str}
    (hs : ∀ r ∈ served, UrlSafe r ∧ '+' ∉ r) {store : Str → Option Str} {tr : List PageEvent} {p : StartPage} (hv : Patient served store tr p)
    (hf : FromServer u c.sh.log tr) (hw : p.waiting = []) {r : Str} (hr : p.repo = some r) :
    ∃ rs, Printed W srv r (output rs) ∧ p.options = (rs.filter Ref.wanted).map Ref.name := by
  obtain ⟨list, ⟨pre, i, post, rfl, _⟩, ho, _⟩ := C83_options hv hw hr
  obtain ⟨id, f, r', v, hq, hl, hb⟩ := hf i r list (by simp)
  have hsafe := hs r ((C83_selected (visit_of_patient hv)).2.2 r hr).2.1
  rw [C84_asked u hsafe.1 hsafe.2] at hq
  cases hq
  rw [C84_read] at hb
  cases hb
  obtain ⟨rs, hp, rfl⟩ := C84_references hg h hl
  refine ⟨rs, hp, ?_⟩
  rw [ho, List.map_map]
  rfl

/-! ### A concrete case -/

/-- What git lists: a branch, the object a tag points to, and the tag. -/
def exRefs : List Ref := [⟨str% "0123456789abcdef", false, str% "fix\"1"⟩, ⟨str% "89abcdef01234567", true, str% "v1^{}"⟩, ⟨str% "fedcba9876543210", true, str% "v1"⟩]

def exListWorld : World where
  State := Unit
  git _ _ := (.exited true (output exRefs) [] true, ())
  glob _ _ := .ok []
  fs _ := fun _ => .error []

theorem exList_git : GitLists exListWorld := by
  intro s s' stdout stderr utf8 h
  cases h
  refine ⟨exRefs, rfl, ?_⟩
  intro r hr
  simp only [exRefs, List.mem_cons, List.not_mem_nil, or_false] at hr
  rcases hr with rfl | rfl | rfl <;>
    exact ⟨⟨⟨by decide, by decide⟩, by decide, by decide⟩, by rintro ⟨a, b, h⟩; have := congrArg List.length h; simp at this; omega,
      by rintro ⟨a, b, h⟩; have := congrArg List.length h; simp at this; omega⟩

/-- What the server lists. -/
def exList : List (Str × Str) := [(str% "fix\"1", str% "0123456789ab"), (str% "v1", str% "fedcba987654")]

theorem exList_run (W : World) (st : W.State) (srv : Server) {r : Str} (hr : srv.repos r ≠ none) {out : GitOut} {s' : W.State}
    (hg : W.git st [str% "ls-remote", str% "--tags", str% "--heads"] = (out, s')) :
    (branchesP srv r false).step W st = some (Prog.done (expectListed out) >>= fun stdout => Prog.done (parseBranches stdout), s') := by
  unfold branchesP
  split
  · exact absurd (by assumption) hr
  · show some ((Prog.andThen _ _), _) = _
    rw [hg]
    rfl

theorem exList_reachable : ∃ c, Reachable exListWorld (exServer ⟨rustSyn, asciiClass⟩) c ∧ .listed 0 (str% "repo") (.ok exList) ∈ c.sh.log := by
  have hp : (Prog.done (expectListed (.exited true (output exRefs) [] true)) >>= fun stdout => Prog.done (parseBranches stdout)) =
      (.done (.ok exList) : Prog (List (Str × Str))) := by
    show Prog.done (parseBranches (output exRefs)) = _
    rw [show parseBranches (output exRefs) = .ok exList by decide +kernel]
  have h1 : Reachable exListWorld (exServer ⟨rustSyn, asciiClass⟩) _ := .step (.init (fun _ => ()) 0) (.arrive (.branches (str% "repo") false))
  have h2 := Reachable.step h1 (.thread 0 ⟨_, _, _, rfl, .branchTake ⟨rfl, fun _ => rfl⟩, rfl⟩)
  have h3 := Reachable.step h2 (.thread 0 ⟨_, _, _, rfl, .branchWork (exList_run exListWorld () _ (by decide) rfl), rfl⟩)
  have h4 := Reachable.step h3 (.thread 0 ⟨.branching (str% "repo") (.done (.ok exList)), _, _, by rw [← hp]; rfl, .branchOk, rfl⟩)
  exact ⟨_, h4, List.mem_append_right _ List.mem_cons_self⟩

/-- All hypotheses of `C84_page` are met by a concrete server and a concrete visit, and the page offers the branch and the tag. -/
theorem C84_example (u : Utf8Lossy) : ∃ c tr p, Reachable exListWorld (exServer ⟨rustSyn, asciiClass⟩) c ∧ GitLists exListWorld ∧
    Patient [str% "repo"] (fun _ => none) tr p ∧ FromServer u c.sh.log tr ∧ p.waiting = [] ∧ p.repo = some (str% "repo") ∧
    p.options = [str% "fix\"1", str% "v1"] := by
  obtain ⟨c, hc, hl⟩ := exList_reachable
  refine ⟨c, _, _, hc, exList_git, .answer (.repo .loaded rfl (r := str% "repo") rfl) (i := 0) (r := str% "repo") (l := exList) rfl, ?_, rfl, rfl, rfl⟩
  intro i r list h
  simp only [List.nil_append, List.cons_append, List.mem_cons, List.not_mem_nil, or_false, reduceCtorEq, false_or, PageEvent.answer.injEq] at h
  obtain ⟨rfl, rfl, rfl⟩ := h
  exact ⟨0, false, _, exList, C84_asked u (urlSafe_of (by decide)) (by decide) false, hl, C84_read _⟩

/-- A name with quotes, a line end and another control character. -/
example : branchesBody [(str% "a\"\\\n\x01é", str% "0")] = str% "{\"branch\":[[\"a\\\"\\\\\\n\\u0001é\",\"0\"]]}" := by decide +kernel
/-- The reader also reads JSON written differently. -/
example : readBranches (str% " { \"x\" : null, \"branch\" : [ [ \"\\u0041\\ud83d\\ude00\\/\" , \"1\" ] ] } ") = some [(str% "A😀/", str% "1")] := by decide +kernel

end Swc
