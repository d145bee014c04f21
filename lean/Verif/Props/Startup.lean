/-
C63: the organisation of a repository.  C65: the version check.  C66: the start of the server.
-/
import Verif.Model.Startup
import Verif.Spec.Startup
import Verif.Props.ParseFile

namespace Swc

open Spec

/-! ### C63 -/

theorem takeWhile_no_slash (s : Str) : '/' ∉ s.takeWhile (· ≠ '/') := by
  intro h
  induction s with
  | nil => simp at h
  | cons c s ih =>
    rw [List.takeWhile_cons] at h
    split at h
    · rename_i hc
      rcases List.mem_cons.1 h with rfl | h
      · simp at hc
      · exact ih h
    · simp at h

theorem dropWhile_slash {s : Str} {c : Char} {t : Str} (h : s.dropWhile (· ≠ '/') = c :: t) : c = '/' := by
  have := List.head?_dropWhile_not (p := fun c : Char => c ≠ '/') s
  rw [h] at this
  simpa using this

/-- C63: the text `s` yields the organisation `org` exactly if it starts with `https://github?com/` for some character `?` other than a line
feed, then `org`, not empty and without slash, and then a slash. -/
theorem C63_org_iff (s org : Str) : orgOf s = some org ↔ ∃ c, c ≠ '\n' ∧ HttpsUrl (str% "github" ++ [c] ++ str% "com") org s := by
  constructor
  · intro h
    unfold orgOf at h
    split at h
    · rename_i c rest h1
      split at h
      · cases h
      · rename_i hc
        split at h
        · rename_i r2 h2
          dsimp only at h
          by_cases hne : r2.takeWhile (· ≠ '/') = []
          · rw [if_pos hne] at h; cases h
          · rw [if_neg hne] at h
            split at h
            · cases h
            · rename_i d t h3
              cases h
              have hd := dropWhile_slash h3
              subst hd
              refine ⟨c, hc, t, ?_, hne, takeWhile_no_slash _⟩
              have e1 := stripLit_some h1
              have e2 := stripLit_some h2
              have e3 := List.takeWhile_append_dropWhile (p := fun c : Char => decide (c ≠ '/')) (l := r2)
              rw [h3] at e3
              rw [e1, e2]
              conv_lhs => rw [← e3]
              simp
        · cases h
    · cases h
  · rintro ⟨c, hc, rest, rfl, hne, hno⟩
    have e : str% "https://" ++ (str% "github" ++ [c] ++ str% "com") ++ str% "/" ++ org ++ str% "/" ++ rest
        = str% "https://github" ++ (c :: (str% "com/" ++ (org ++ '/' :: rest))) := by simp
    unfold orgOf
    rw [e, stripLit_append]
    simp only [if_neg hc]
    rw [stripLit_append]
    have h1 : (org ++ '/' :: rest).takeWhile (· ≠ '/') = org := by
      rw [takeWhile_append_of_all fun x hx => by simpa using fun h : x = '/' => hno (h ▸ hx)]
      simp
    have h2 : (org ++ '/' :: rest).dropWhile (· ≠ '/') = '/' :: rest := by
      rw [dropWhile_append_of_all fun x hx => by simpa using fun h : x = '/' => hno (h ▸ hx)]
      simp
    simp only [h1, h2, if_neg hne]

/-- C63: the organisation of an https URL on `github.com` is its first path segment, and it is the only answer. -/
theorem C63_github (org stdout : Str) (h : HttpsUrl (str% "github.com") org stdout) :
    (∀ stderr utf8, getOriginOrg (.exited true stdout stderr utf8) = .ok org) := by
  intro stderr utf8
  have : orgOf stdout = some org := (C63_org_iff _ _).2 ⟨'.', by decide, h⟩
  simp [getOriginOrg, this]

/-- C63: an answer is given only if git succeeded and printed an https URL on `github?com`; all other outcomes are errors, never panics. -/
theorem C63_ok_iff (out : GitOut) (org : Str) : getOriginOrg out = .ok org ↔
    ∃ stdout stderr utf8 c, out = .exited true stdout stderr utf8 ∧ c ≠ '\n' ∧ HttpsUrl (str% "github" ++ [c] ++ str% "com") org stdout := by
  constructor
  · intro h
    unfold getOriginOrg at h
    split at h
    · cases h
    · cases h
    · rename_i stdout stderr utf8
      split at h
      · rename_i o ho
        cases h
        obtain ⟨c, hc, hu⟩ := (C63_org_iff _ _).1 ho
        exact ⟨stdout, stderr, utf8, c, rfl, hc, hu⟩
      · cases h
  · rintro ⟨stdout, stderr, utf8, c, rfl, hc, hu⟩
    have : orgOf stdout = some org := (C63_org_iff _ _).2 ⟨c, hc, hu⟩
    simp [getOriginOrg, this]

/-- C63: `get_origin_org` never panics. -/
theorem C63_clean (out : GitOut) : (∃ org, getOriginOrg out = .ok org) ∨ ∃ e, getOriginOrg out = .err e := by
  unfold getOriginOrg
  split
  · exact .inr ⟨_, rfl⟩
  · exact .inr ⟨_, rfl⟩
  · split
    · exact .inl ⟨_, rfl⟩
    · exact .inr ⟨_, rfl⟩

/-- C63 (finding): the dot of the pattern is not escaped, so another host is taken for GitHub. -/
theorem C63_other_host : orgOf (str% "https://github-com/evil/repo\n") = some (str% "evil") := by decide

example : HttpsUrl (str% "github.com") (str% "myorg") (str% "https://github.com/myorg/myrepo.git\n") :=
  ⟨str% "myrepo.git\n", by decide, by decide, by decide⟩
/-- The cases of the tests in `web/src/git.rs:33-37`, with the line feed printed by git. -/
example : orgOf (str% "https://github.com/myorg/myrepo\n") = some (str% "myorg") ∧ orgOf (str% "https://gitlab.com/myorg/myrepo\n") = none
    ∧ orgOf (str% "ssh://gitlab.com:myorg/myrepo\n") = none ∧ orgOf (str% "git@github.com:myorg/myrepo.git\n") = none
    ∧ orgOf (str% "https://github.com/myorg\n") = none := by decide

/-! ### C65 -/

/-- `w` is `v` with every `+` replaced by a space. -/
def PlusToSpace (v w : Str) : Prop :=
  List.Forall₂ (fun c d => (c = '+' ∧ d = ' ') ∨ (c ≠ '+' ∧ d = c)) v w

theorem map_plus_iff (v w : Str) : v.map (fun c => if c = '+' then ' ' else c) = w ↔ PlusToSpace v w := by
  constructor
  · rintro rfl
    induction v with
    | nil => exact .nil
    | cons c v ih =>
      refine .cons ?_ ih
      by_cases h : c = '+' <;> simp [h]
  · intro h
    induction h with
    | nil => rfl
    | cons h _ ih =>
      rw [List.map_cons, ih]
      rcases h with ⟨rfl, rfl⟩ | ⟨h, rfl⟩
      · rfl
      · rw [if_neg h]

/-- C65: `/version?is=V` answers 200 if `V` is the running version or that version with every `+` replaced by a space, and otherwise 500. -/
theorem C65_version (current v : Str) :
    ((version current (some v)).status = 200 ↔ v = current ∨ PlusToSpace current v)
    ∧ ((version current (some v)).status = 500 ↔ ¬ (v = current ∨ PlusToSpace current v)) := by
  rw [← map_plus_iff]
  have e : (current = v ∨ current.map (fun c => if c = '+' then ' ' else c) = v)
      ↔ (v = current ∨ current.map (fun c => if c = '+' then ' ' else c) = v) := by
    rw [eq_comm (a := current)]
  simp only [version]
  by_cases h : current = v ∨ current.map (fun c => if c = '+' then ' ' else c) = v
  · rw [if_pos h]; simp [e.1 h]
  · rw [if_neg h]; simp [mt e.2 h]

/-- C65: without a parameter the version is shown. -/
theorem C65_shown (current : Str) : (version current none).status = 200 ∧ (version current none).body = current := ⟨rfl, rfl⟩

theorem formDecode_plain {s : Str} (h : '%' ∉ s) : formDecode s = s.map fun c => if c = '+' then ' ' else c := by
  induction s with
  | nil => rfl
  | cons c s ih =>
    have hc : c ≠ '%' := by rintro rfl; simp at h
    have hs : '%' ∉ s := fun h' => h (by simp [h'])
    rw [formDecode.eq_2, ih hs]
    · rfl
    · intro a b t h1; exact absurd h1 hc

/-- C65: writing the version into the URL without any encoding works, although `+` then means a space. -/
theorem C65_unencoded (current : Str) (h : '%' ∉ current) : (version current (some (formDecode current))).status = 200 := by
  rw [formDecode_plain h]
  exact ((C65_version _ _).1).2 (.inr ((map_plus_iff _ _).1 rfl))

theorem hexVal_digitChar {n : Nat} (h : n < 16) : hexVal (Nat.digitChar n) = some n := by
  have : ∀ m : Fin 16, hexVal (Nat.digitChar m) = some m.1 := by decide
  exact this ⟨n, h⟩

theorem formDecode_encode (s t : Str) (h : ∀ c ∈ s, c.toNat < 128) : formDecode (formEncode s ++ t) = s ++ formDecode t := by
  induction s with
  | nil => rfl
  | cons c s ih =>
    have hc := h c (by simp)
    have hs : ∀ d ∈ s, d.toNat < 128 := fun d hd => h d (by simp [hd])
    simp only [formEncode, List.flatMap_cons] at ih ⊢
    split
    · rename_i hu
      have h1 : c ≠ '%' := by rintro rfl; exact absurd hu (by decide)
      have h2 : c ≠ '+' := by rintro rfl; exact absurd hu (by decide)
      rw [List.append_assoc, List.singleton_append, formDecode.eq_2, ih hs, if_neg h2]
      · rfl
      · intro a b u h'; exact absurd h' h1
    · have hx := hexVal_digitChar (n := c.toNat / 16) (by omega)
      have hy := hexVal_digitChar (n := c.toNat % 16) (by omega)
      rw [show '%' :: hex2 c.toNat ++ _ ++ t = '%' :: Nat.digitChar (c.toNat / 16) :: Nat.digitChar (c.toNat % 16) :: (_ ++ t) from rfl,
        formDecode.eq_1, hx, hy]
      have e : 16 * (c.toNat / 16) + c.toNat % 16 = c.toNat := Nat.div_add_mod _ _
      simp only [e, if_pos hc, Char.ofNat_toNat]
      exact congrArg _ (ih hs)

/-- C65: so does a correctly encoded version. -/
theorem C65_encoded (current : Str) (h : ∀ c ∈ current, c.toNat < 128) : (version current (some (formDecode (formEncode current)))).status = 200 := by
  have := formDecode_encode current [] h
  rw [List.append_nil] at this
  rw [this]
  exact ((C65_version _ _).1).2 (.inl (List.append_nil _))

/-- C65 (finding): the answer to a failed check contains the parameter as it is and is served as HTML, so a link can make the server answer
with a script of the link's author. -/
theorem C65_reflects (current v : Str) (h : ¬ (v = current ∨ PlusToSpace current v)) :
    (version current (some v)).contentType = str% "text/html; charset=utf-8"
    ∧ ∃ pre post, (version current (some v)).body = pre ++ v ++ post := by
  rw [← map_plus_iff] at h
  have e : ¬ (current = v ∨ current.map (fun c => if c = '+' then ' ' else c) = v) := by rw [eq_comm (a := current)]; exact h
  simp only [version, if_neg e]
  exact ⟨rfl, str% "Version check failed: '" ++ current ++ str% "' vs '", str% "'", rfl⟩

example : (version (str% "0.4.1+ab12cd3") (some (formDecode (str% "0.4.1+ab12cd3")))).status = 200
    ∧ (version (str% "0.4.1+ab12cd3") (some (formDecode (str% "0.4.1%2Bab12cd3")))).status = 200
    ∧ (version (str% "0.4.1+ab12cd3") (some (str% "0.4.0 ab12cd3"))).status = 500
    ∧ (version (str% "a+b+c") (some (str% "a b+c"))).status = 500 := by decide
example : (version (str% "0.4.1+ab12cd3") (some (formDecode (str% "%3Cscript%3Ealert(1)%3C/script%3E")))).body
    = str% "Version check failed: '0.4.1+ab12cd3' vs '<script>alert(1)</script>'" := by decide +kernel

/-! ### C66 -/

/-- What is needed of a repository. -/
def RepoGood (env : StartEnv) (name : Str) : Prop :=
  env.exists_ (env.join name) = true ∧ ∃ org, getOriginOrg (env.origin (env.join name)) = .ok org

theorem addRepos_spec (env : StartEnv) (names : List Str) : ∀ m : List (Str × Repo),
    ((∃ m', addRepos env names m = .ok m') ↔ ∀ name ∈ names, RepoGood env name)
    ∧ ((¬ ∀ name ∈ names, RepoGood env name) → ∃ e, addRepos env names m = .err e)
    ∧ ∀ m', addRepos env names m = .ok m' → ∀ name, (name ∉ names → m'.lookup name = m.lookup name)
      ∧ (name ∈ names → ∃ org, getOriginOrg (env.origin (env.join name)) = .ok org ∧ m'.lookup name = some ⟨name, env.join name, org⟩) := by
  induction names with
  | nil =>
    refine fun m => ⟨⟨fun _ => by simp, fun _ => ⟨m, rfl⟩⟩, fun h => absurd (by simp) h, ?_⟩
    intro m' h name
    cases h
    exact ⟨fun _ => rfl, fun h => absurd h (by simp)⟩
  | cons x names ih =>
    intro m
    rw [addRepos]
    rcases C63_clean (env.origin (env.join x)) with ⟨org, ho⟩ | ⟨e, he⟩
    · simp only [ho, Res.bind_ok]
      cases hx : env.exists_ (env.join x) with
      | false =>
        have hbad : ¬ ∀ name ∈ x :: names, RepoGood env name := by
          intro h
          have := (h x (by simp)).1
          rw [hx] at this; cases this
        simp only [Bool.false_eq_true, if_false]
        exact ⟨⟨fun ⟨_, h⟩ => (by cases h), fun h => absurd h hbad⟩, fun _ => ⟨_, rfl⟩, fun m' h => by cases h⟩
      | true =>
        simp only [if_true]
        obtain ⟨h1, h2, h3⟩ := ih ((x, ⟨x, env.join x, org⟩) :: m)
        have hg : (∀ name ∈ x :: names, RepoGood env name) ↔ ∀ name ∈ names, RepoGood env name := by
          rw [List.forall_mem_cons]
          exact ⟨fun h => h.2, fun h => ⟨⟨hx, org, ho⟩, h⟩⟩
        refine ⟨h1.trans hg.symm, fun h => h2 (mt hg.2 h), ?_⟩
        intro m' hm name
        obtain ⟨h4, h5⟩ := h3 m' hm name
        constructor
        · intro hn
          rw [List.mem_cons, not_or] at hn
          rw [h4 hn.2, List.lookup_cons]
          have : (name == x) = false := by simpa using hn.1
          rw [this]
        · intro hn
          by_cases hin : name ∈ names
          · exact h5 hin
          · rcases List.mem_cons.1 hn with rfl | hn
            · refine ⟨org, ho, ?_⟩
              rw [h4 hin, List.lookup_cons]
              simp
            · exact absurd hn hin
    · simp only [he, Res.bind_err]
      have hbad : ¬ ∀ name ∈ x :: names, RepoGood env name := by
        intro h
        obtain ⟨-, o, ho⟩ := h x (by simp)
        rw [he] at ho; cases ho
      exact ⟨⟨fun ⟨_, h⟩ => (by cases h), fun h => absurd h hbad⟩, fun _ => ⟨_, rfl⟩, fun m' h => by cases h⟩

/-- C66: the server starts exactly if repositories are given, each one exists and has a GitHub origin, and the directory of static files
exists; otherwise it ends with an error, never with a panic. -/
theorem C66_starts_iff (env : StartEnv) (repos : List Str) :
    ((∃ m, startup env repos = .ok m) ↔ repos ≠ [] ∧ (∀ name ∈ repos, RepoGood env name) ∧ env.staticIsDir = true)
    ∧ ((∃ m, startup env repos = .ok m) ∨ ∃ e, startup env repos = .err e) := by
  unfold startup
  by_cases h0 : repos = []
  · rw [if_pos h0]
    exact ⟨⟨fun ⟨_, h⟩ => (by cases h), fun h => absurd h0 h.1⟩, .inr ⟨_, rfl⟩⟩
  · rw [if_neg h0]
    obtain ⟨h1, h2, -⟩ := addRepos_spec env repos []
    by_cases hg : ∀ name ∈ repos, RepoGood env name
    · obtain ⟨m, hm⟩ := h1.2 hg
      rw [hm, Res.bind_ok]
      cases hs : env.staticIsDir with
      | false => exact ⟨⟨fun ⟨_, h⟩ => (by cases h), fun h => (by cases h.2.2)⟩, .inr ⟨_, rfl⟩⟩
      | true => exact ⟨⟨fun _ => ⟨h0, hg, rfl⟩, fun _ => ⟨m, rfl⟩⟩, .inl ⟨m, rfl⟩⟩
    · obtain ⟨e, he⟩ := h2 hg
      rw [he, Res.bind_err]
      exact ⟨⟨fun ⟨_, h⟩ => (by cases h), fun h => absurd h.2.1 hg⟩, .inr ⟨_, rfl⟩⟩

/-- C66: the server that starts knows exactly the given names; each one stands for the directory below the root and the organisation found
there. -/
theorem C66_repos (env : StartEnv) (repos : List Str) (m : List (Str × Repo)) (h : startup env repos = .ok m) (name : Str) :
    (name ∉ repos → m.lookup name = none)
    ∧ (name ∈ repos → ∃ org, getOriginOrg (env.origin (env.join name)) = .ok org ∧ m.lookup name = some ⟨name, env.join name, org⟩) := by
  unfold startup at h
  split at h
  · cases h
  · obtain ⟨-, -, h3⟩ := addRepos_spec env repos []
    cases hm : addRepos env repos [] with
    | ok m' =>
      rw [hm, Res.bind_ok] at h
      split at h
      · cases h
        exact h3 _ hm name
      · cases h
    | err e => rw [hm] at h; cases h
    | panic => rw [hm] at h; cases h
    | diverge => rw [hm] at h; cases h

/-- A start with one repository. -/
example : startup ⟨fun n => [.root, .normal n], fun _ => .exited true (str% "https://github.com/paritytech/polkadot-sdk\n") [] true, fun _ => true, true, []⟩
    [str% "polkadot-sdk"] = .ok [(str% "polkadot-sdk", ⟨str% "polkadot-sdk", [.root, .normal (str% "polkadot-sdk")], str% "paritytech"⟩)] := by decide

end Swc
