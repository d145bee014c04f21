/-
C101: what a comparison tells about files outside of the repository.
-/
import Verif.Spec.Outside
import Verif.Props.Glob
import Verif.Props.FailurePage

namespace Swc

open Spec

variable {W : World}

/-! ### Ordinary patterns: nothing -/

theorem parse_head_dot {prev : Option Char} {p : Str} {ts : List GlobTok} (h : parseGlob prev p = some ts) (hs : '/' ∉ p) (h0 : p.head? ≠ some '.') :
    ts.head? ≠ some (.char '.') := by
  cases p with
  | nil => rw [parse_nil] at h; cases h; simp
  | cons c p =>
    have hp' : '/' ∉ p := fun h => hs (List.mem_cons_of_mem _ h)
    rcases parse_head h hp' with ⟨ts', rfl, e⟩ | ⟨t, ts', rfl, ht⟩
    · simpa using h0
    · simpa using ht '.'

/-- What counts of an entry: its name, what it is, and its path. -/
def localPart (e : Str × GlobSpot × Path) : Str × GlobNode × Path := (e.1, e.2.1.node, e.2.2)

theorem join_local {path path' : Path} (h : bare path = bare path') (s : Str) : globJoin path s = globJoin path' s := by
  rw [globJoin_bare, globJoin_bare, h]

theorem here_local (es : GlobEntries) {up up' : List GlobNode} {path path' : Path} (h : bare path = bare path') :
    (es.here up path).map localPart = (es.here up' path').map localPart := by
  match es with
  | .nil => rfl
  | .cons s n es => rw [GlobEntries.here, GlobEntries.here, List.map_cons, List.map_cons, here_local es (up' := up') h, localPart, localPart, join_local h]

mutual
theorem under_local (n : GlobNode) {up up' : List GlobNode} {path path' : Path} (h : bare path = bare path') :
    (n.under up path).map localPart = (n.under up' path').map localPart := by
  match n with
  | .file => rfl
  | .dir es => exact unders_local es h
theorem unders_local (es : GlobEntries) {up up' : List GlobNode} {path path' : Path} (h : bare path = bare path') :
    (es.under up path).map localPart = (es.under up' path').map localPart := by
  match es with
  | .nil => rfl
  | .cons s n es =>
    simp only [GlobEntries.under, List.map_cons, List.map_append, List.cons_append, localPart, join_local h]
    rw [under_local n (up := up) (up' := up') rfl, unders_local es (up' := up') h]
end

/-- Lists that are the same in what counts give the same, if what is made of an entry depends on this alone. -/
theorem flatMap_local {β : Type} {l l' : List (Str × GlobSpot × Path)} (h : l.map localPart = l'.map localPart) {q : Str → Bool} {f : GlobSpot → Path → List β}
    (hf : ∀ n up up' p, f ⟨n, up⟩ p = f ⟨n, up'⟩ p) :
    (l.filter fun e => q e.1).flatMap (fun e => f e.2.1 e.2.2) = (l'.filter fun e => q e.1).flatMap (fun e => f e.2.1 e.2.2) := by
  induction l generalizing l' with
  | nil =>
    cases l' with
    | nil => rfl
    | cons x l' => cases h
  | cons e l ih =>
    cases l' with
    | nil => cases h
    | cons e' l' =>
      obtain ⟨s, ⟨n, up⟩, p⟩ := e
      obtain ⟨s', ⟨n', up'⟩, p'⟩ := e'
      have h1 := (List.cons.inj h).1
      cases h1
      have h2 := ih (List.cons.inj h).2
      simp only [List.filter_cons]
      split
      · simp only [List.flatMap_cons, h2, hf n up up' p]
      · exact h2

theorem walk_local {ps : List (List GlobTok)} (hp : ∀ ts ∈ ps, ts ≠ [] ∧ ts.head? ≠ some (.char '.')) (dirs : Bool) {deep : Bool} {n : GlobNode}
    {up up' : List GlobNode} {path path' : Path} (h : bare path = bare path') :
    globWalk dirs deep ps ⟨n, up⟩ path = globWalk dirs deep ps ⟨n, up'⟩ path' := by
  induction ps generalizing deep n up up' path path' with
  | nil =>
    cases deep with
    | false => rfl
    | true =>
      have hl := under_local n (up := up) (up' := up') h
      simp only [globWalk]
      have e : ∀ l : List (Str × GlobSpot × Path), (l.filter fun e => e.2.1.node.isDir).map (fun e => e.2.2) =
          ((l.map localPart).filter fun e => e.2.1.isDir).map fun e => e.2.2 := by
        intro l
        rw [List.filter_map, List.map_map]
        rfl
      rw [e, e, hl]
  | cons p rest ih =>
    obtain ⟨h1, h2⟩ := hp p List.mem_cons_self
    have ih' := fun {deep} {n} {up up'} {path path'} h => ih (fun ts hts => hp ts (List.mem_cons_of_mem _ hts)) (deep := deep) (n := n) (up := up) (up' := up') (path := path) (path' := path') h
    have hadd : ∀ (n : GlobNode) (up up' : List GlobNode) (q : Path),
        (if rest = [] then (if dirs && !n.isDir then [] else [q]) else globWalk dirs false rest ⟨n, up⟩ q) =
        (if rest = [] then (if dirs && !n.isDir then [] else [q]) else globWalk dirs false rest ⟨n, up'⟩ q) := by
      intro n up up' q
      split
      · rfl
      · exact ih' rfl
    have hd : ∀ s, globLiteral p = some s → s ≠ ['.'] ∧ s ≠ ['.', '.'] ∧ s ≠ [] := by
      intro s hs
      cases p with
      | nil => exact absurd rfl h1
      | cons t ts =>
        cases t with
        | char c =>
          obtain ⟨s', h3, rfl⟩ := Option.map_eq_some_iff.1 hs
          have hc : c ≠ '.' := by simpa using h2
          simp [hc]
        | _ => cases hs
    simp only [globWalk]
    split
    · exact ih' h
    · split
      · exact flatMap_local (q := globMatches p) (f := fun (spot : GlobSpot) path => if rest = [] then (if dirs && !spot.node.isDir then [] else [path]) else globWalk dirs false rest spot path)
          (under_local n h) hadd
      · cases hl : globLiteral p with
        | some s =>
          obtain ⟨h3, h4, h5⟩ := hd s hl
          simp only [if_neg h3, if_neg h4, if_neg h5]
          cases n with
          | file => rfl
          | dir es =>
            simp only [GlobSpot.child]
            cases es.find s with
            | none => rfl
            | some c =>
              simp only [Option.map_some]
              rw [join_local h]
              exact hadd _ _ _ _
        | none =>
          cases n with
          | file => rfl
          | dir es =>
            simp only [h2, false_and, if_false, List.nil_append]
            exact flatMap_local (q := globMatches p) (f := fun (spot : GlobSpot) path => if rest = [] then (if dirs && !spot.node.isDir then [] else [path]) else globWalk dirs false rest spot path)
              (here_local es h) hadd

theorem ordinary_good {piece : Str} {comps : List Str} (h : Ordinary piece comps) : ∀ p ∈ comps, GoodComp p := fun p hp => h.good p hp

/-- With ordinary patterns, the same is found if the same is in the repository. -/
theorem glob_same {d d' : GlobDisk} {base : Path} {repo repo' : GlobSpot} (hr : RepoAt d base repo) (hr' : RepoAt d' base repo') (hn : repo'.node = repo.node)
    {piece : Str} {comps : List Str} (ho : Ordinary piece comps) :
    ∃ l, globOn d (base.display ++ str% "/" ++ piece) = some l ∧ globOn d' (base.display ++ str% "/" ++ piece) = some l := by
  obtain ⟨ps, hps⟩ := forall_parse (ordinary_good ho) (fun p hp => (ho.names p hp).1)
  obtain ⟨path, h1, -, h3⟩ := repo_walk hr ho.some_ (fun p hp => ⟨(ho.names p hp).1, (ho.names p hp).2.1⟩) (ordinary_good ho) hps
  obtain ⟨path', h1', -, h3'⟩ := repo_walk hr' ho.some_ (fun p hp => ⟨(ho.names p hp).1, (ho.names p hp).2.1⟩) (ordinary_good ho) hps
  rw [ho.split] at h3 h3'
  refine ⟨_, h3, h3'.trans (congrArg some ?_)⟩
  obtain ⟨n, up⟩ := repo
  obtain ⟨n', up'⟩ := repo'
  cases hn
  have hh : ∀ {cs : List Str} {ps : List (List GlobTok)}, List.Forall₂ (fun p ts => parseGlob none p = some ts) cs ps →
      (∀ p ∈ cs, '/' ∉ p ∧ p ≠ [] ∧ p.head? ≠ some '.') → ∀ ts ∈ ps, ts ≠ [] ∧ ts.head? ≠ some (.char '.') := by
    intro cs ps h
    induction h with
    | nil => simp
    | @cons p ts cs ps hp _ ih =>
      intro hc ts' hts
      rcases List.mem_cons.1 hts with rfl | hts
      · obtain ⟨h4, h5, h6⟩ := hc p List.mem_cons_self
        refine ⟨?_, parse_head_dot hp h4 h6⟩
        rintro rfl
        cases p with
        | nil => exact h5 rfl
        | cons c p => rcases parse_head hp (fun h => h4 (List.mem_cons_of_mem _ h)) with ⟨_, h, -⟩ | ⟨_, _, h, -⟩ <;> cases h
      · exact ih (fun q hq => hc q (List.mem_cons_of_mem _ hq)) ts' hts
  exact walk_local (hh hps ho.names) false (h1'.trans h1.symm)

/-- Two computations on machines with different files do the same. -/
def Alike {glob : W.State → Str → Except Str (List (Except Str Path))} {fs : W.State → Fs} {α : Type} (x : Act W α) (y : Act (elsewhere W glob fs) α) : Prop :=
  ∀ (st : W.State) (l : List Event), (x ⟨st, l⟩).1 = (y ⟨st, l⟩).1 ∧ (x ⟨st, l⟩).2.state = (y ⟨st, l⟩).2.state ∧ (x ⟨st, l⟩).2.log = (y ⟨st, l⟩).2.log

section
variable {glob : W.State → Str → Except Str (List (Except Str Path))} {fs : W.State → Fs}

theorem alike_bind {α β : Type} {x : Act W α} {y : Act (elsewhere W glob fs) α} {f : α → Act W β} {g : α → Act (elsewhere W glob fs) β}
    (h : Alike x y) (hf : ∀ st l st' l' a, x ⟨st, l⟩ = (.ok a, ⟨st', l'⟩) → (f a ⟨st', l'⟩).1 = (g a ⟨st', l'⟩).1 ∧ (f a ⟨st', l'⟩).2.state = (g a ⟨st', l'⟩).2.state ∧
      (f a ⟨st', l'⟩).2.log = (g a ⟨st', l'⟩).2.log) : Alike (x >>= f) (y >>= g) := by
  intro st l
  have h1 := h st l
  have h2 := hf st l
  rw [Act.bind_eq, Act.bind_eq]
  generalize x ⟨st, l⟩ = r at h1 h2
  obtain ⟨r, ⟨st1, l1⟩⟩ := r
  revert h1
  generalize y ⟨st, l⟩ = r'
  obtain ⟨r', ⟨st2, l2⟩⟩ := r'
  rintro ⟨h1, h3, h4⟩
  dsimp only at h1 h3 h4
  subst h1 h3 h4
  cases r with
  | ok a => exact h2 st1 l1 a rfl
  | err m => exact ⟨rfl, rfl, rfl⟩
  | panic => exact ⟨rfl, rfl, rfl⟩
  | diverge => exact ⟨rfl, rfl, rfl⟩

theorem alike_lift {α : Type} (r : Res α) : Alike (Act.lift r : Act W α) (Act.lift r : Act (elsewhere W glob fs) α) := fun _ _ => ⟨rfl, rfl, rfl⟩

theorem alike_git (args : List Str) : Alike (runGit args : Act W GitOut) (runGit args : Act (elsewhere W glob fs) GitOut) := fun _ _ => ⟨rfl, rfl, rfl⟩

theorem alike_then {α β : Type} {x : Act W α} {y : Act (elsewhere W glob fs) α} {f : α → Act W β} {g : α → Act (elsewhere W glob fs) β}
    (h : Alike x y) (hf : ∀ a, Alike (f a) (g a)) : Alike (x >>= f) (y >>= g) := alike_bind h fun _ _ st l a _ => hf a st l

theorem alike_mapErr {α : Type} {x : Act W α} {y : Act (elsewhere W glob fs) α} (m : Str → Str) (h : Alike x y) : Alike (x.mapErr m) (y.mapErr m) := by
  intro st l
  obtain ⟨h1, h2, h3⟩ := h st l
  exact ⟨congrArg (Res.mapErr m) h1, h2, h3⟩

theorem alike_pull (refname : Str) : Alike (gitPull refname : Act W Unit) (gitPull refname : Act (elsewhere W glob fs) Unit) :=
  alike_then (alike_git _) fun _ => alike_lift _

theorem alike_checkout (refname : Str) (pull force : Bool) :
    Alike (gitCheckout refname pull force : Act W Unit) (gitCheckout refname pull force : Act (elsewhere W glob fs) Unit) := by
  have hr : Alike (gitReset refname false : Act W Unit) (gitReset refname false : Act (elsewhere W glob fs) Unit) := by
    refine alike_then (alike_git _) fun out => ?_
    split
    · exact alike_lift (.ok ())
    · exact alike_then (alike_git _) fun _ => alike_lift _
  have hp : Alike (gitReset refname true : Act W Unit) (gitReset refname true : Act (elsewhere W glob fs) Unit) := by
    refine alike_then (alike_pull refname) fun _ => alike_then (alike_git _) fun out => ?_
    split
    · exact alike_lift (.ok ())
    · exact alike_then (alike_git _) fun _ => alike_lift _
  cases force <;> cases pull
  · exact alike_then (alike_git _) fun _ => alike_lift _
  · exact alike_then (alike_pull refname) fun _ => alike_then (alike_git _) fun _ => alike_lift _
  · exact hr
  · exact hp

variable {disk disk' : W.State → GlobDisk} {base : Path}

theorem alike_glob (hW : OnDisk W disk) (hW' : OnDisk (elsewhere W glob fs) disk') (hs : SameInside disk disk' W.fs fs base) {piece : Str} {comps : List Str}
    (ho : Ordinary piece comps) :
    Alike (runGlob (base.display ++ str% "/" ++ piece) : Act W _) (runGlob (base.display ++ str% "/" ++ piece) : Act (elsewhere W glob fs) _) := by
  intro st l
  obtain ⟨repo, repo', h1, h2, h3, -, -⟩ := hs st
  obtain ⟨ms, h4, h5⟩ := glob_same h1 h2 h3 ho
  have h6 := (hW st _).1 ms h4
  have h7 : glob st _ = _ := (hW' st _).1 ms h5
  refine ⟨?_, rfl, rfl⟩
  show (match W.glob st _ with | .error e => Res.err (str% "Invalid path pattern: " ++ e) | .ok l => collectPaths l) =
    (match glob st _ with | .error e => Res.err (str% "Invalid path pattern: " ++ e) | .ok l => collectPaths l)
  rw [h6, h7]

theorem alike_loop (hW : OnDisk W disk) (hW' : OnDisk (elsewhere W glob fs) disk') (hs : SameInside disk disk' W.fs fs base) (maxFiles : Nat) {ps : List Str}
    (ho : ∀ p ∈ ps, ∃ comps, Ordinary p comps) (acc : List Path) :
    Alike (listLoop base maxFiles ps acc : Act W _) (listLoop base maxFiles ps acc : Act (elsewhere W glob fs) _) := by
  induction ps generalizing acc with
  | nil => exact alike_lift (.ok acc)
  | cons p ps ih =>
    obtain ⟨comps, hc⟩ := ho p List.mem_cons_self
    unfold listLoop
    refine alike_then (alike_glob hW hW' hs hc) fun files => ?_
    dsimp only
    split
    · exact alike_lift _
    · exact ih (fun q hq => ho q (List.mem_cons_of_mem _ hq)) _

theorem parseAll_congr {f g : Path → Res (List ChromaticExtrinsic)} {l : List Path} (h : ∀ p ∈ l, f p = g p) : parseAll f l = parseAll g l := by
  induction l with
  | nil => rfl
  | cons p l ih =>
    rw [parseAll, parseAll, h p List.mem_cons_self, ih fun q hq => h q (List.mem_cons_of_mem _ hq)]

theorem tryParseAll_congr {f g : Path → Res (List ChromaticExtrinsic)} {l : List Path} (h : ∀ p ∈ l, f p = g p) : tryParseAll f l = tryParseAll g l := by
  induction l with
  | nil => rfl
  | cons p l ih =>
    rw [tryParseAll, tryParseAll, h p List.mem_cons_self, ih fun q hq => h q (List.mem_cons_of_mem _ hq)]

theorem alike_use (hW : OnDisk W disk) (hW' : OnDisk (elsewhere W glob fs) disk') (hs : SameInside disk disk' W.fs fs base) (env : Env) (rev : Str)
    (params : CompareParams) {pattern : Str} {ps : List Str} (hp : Pieces pattern ps) (ho : ∀ p ∈ ps, ∃ comps, Ordinary p comps) (maxFiles : Nat) :
    Alike (useRev env base rev params pattern maxFiles : Act W _) (useRev env base rev params pattern maxFiles : Act (elsewhere W glob fs) _) := by
  refine alike_then (alike_mapErr _ (alike_checkout _ _ _)) fun _ => alike_bind ?_ ?_
  · refine alike_then (alike_loop hW hW' hs _ ?_ _) fun _ => alike_lift (.ok _)
    rw [pieces_unique hp (splitChar_pieces _)] at ho
    exact ho
  · intro st l st' l' files h
    have he : st' = st := by
      obtain ⟨-, _, -, h⟩ := (C38_listed _ _ _ _ _ _).1 h
      cases h; rfl
    subst he
    obtain ⟨repo, repo', h1, h2, h3, h4, h5⟩ := hs st'
    have h6 := C98_inside hW (s := ⟨st', l⟩) h1 h4 hp ho h
    have h7 : ∀ p ∈ files, parseFileInRepo env (W.fs st') base p = parseFileInRepo env (fs st') base p := by
      intro p hp
      obtain ⟨ns, n, h8, rfl⟩ := h6 p hp
      unfold parseFileInRepo readFile
      rw [h5 ns n h8]
    refine ⟨?_, rfl, rfl⟩
    show (if _ then tryParseFilesInRepo env (W.fs st') base files else parseFilesInRepo env (W.fs st') base files) =
      (if _ then tryParseFilesInRepo env (fs st') base files else parseFilesInRepo env (fs st') base files)
    unfold tryParseFilesInRepo parseFilesInRepo
    rw [parseAll_congr h7, tryParseAll_congr h7]

/-- C101: with ordinary patterns, the outcome of a comparison, be it a report or an error, does not depend on anything outside of the repository: on two
machines with the same git and the same files in the repository, it is the same. -/
theorem C101_inside (hW : OnDisk W disk) (hW' : OnDisk (elsewhere W glob fs) disk') (hs : SameInside disk disk' W.fs fs base) {pattern : Str} {ps : List Str}
    (hp : Pieces pattern ps) (ho : ∀ p ∈ ps, ∃ comps, Ordinary p comps) (b : Build) (h : HashOrder) (rx : RegexEngine) (env : Env) (old new : Str)
    (params : CompareParams) (filter : FilterParams) (maxFiles : Nat) (st : W.State) (l : List Event) :
    (compareCommits b h rx env base old new params filter pattern maxFiles (⟨st, l⟩ : Run (elsewhere W glob fs))).1 =
      (compareCommits b h rx env base old new params filter pattern maxFiles (⟨st, l⟩ : Run W)).1 := by
  have : Alike (compareCommits b h rx env base old new params filter pattern maxFiles : Act W _)
      (compareCommits b h rx env base old new params filter pattern maxFiles : Act (elsewhere W glob fs) _) := by
    rw [compareCommits_revs, compareCommits_revs]
    split
    · exact alike_lift _
    · exact alike_then (alike_use hW hW' hs env _ _ hp ho _) fun _ => alike_then (alike_use hW hW' hs env _ _ hp ho _) fun _ => alike_lift _
  exact (this st l).1.symm

end

/-! ### Patterns that climb: everything -/

theorem quoted_delimited {plain : Char → Bool} {s s' b b' r r' : Str} (h : QuotedBody plain s b) (h' : QuotedBody plain s' b') (e : b ++ '"' :: r = b' ++ '"' :: r') :
    s = s' ∧ r = r' := by
  induction h generalizing s' b' with
  | done =>
    cases h' with
    | done => cases e; exact ⟨rfl, rfl⟩
    | letter _ _ => cases e
    | plain hn _ _ => cases e; exact absurd (by simp [escapeLetters]) (hn '"')
    | code _ _ _ _ => cases e
  | @letter c x s q hl _ ih =>
    cases h' with
    | done => cases e
    | letter hl' h' =>
      injection e with _ e
      injection e with e1 e
      subst e1
      obtain ⟨rfl, rfl⟩ := ih h' e
      exact ⟨by rw [letters_unique hl hl'], rfl⟩
    | plain hn _ _ => injection e with e _; subst e; exact absurd (by simp [escapeLetters]) (hn '\\')
    | code _ _ _ _ =>
      injection e with _ e
      injection e with e _
      subst e
      exact absurd hl (by simp [escapeLetters])
  | @plain c s q hn _ _ ih =>
    cases h' with
    | done => injection e with e _; subst e; exact absurd (by simp [escapeLetters]) (hn '"')
    | letter _ _ => injection e with e _; subst e; exact absurd (by simp [escapeLetters]) (hn '\\')
    | plain _ _ h' =>
      injection e with e1 e
      subst e1
      obtain ⟨rfl, rfl⟩ := ih h' e
      exact ⟨rfl, rfl⟩
    | code _ _ _ _ => injection e with e _; subst e; exact absurd (by simp [escapeLetters]) (hn '\\')
  | @code c h s q hn _ hx _ ih =>
    cases h' with
    | done => cases e
    | letter hl _ =>
      injection e with _ e
      injection e with e _
      subst e
      exact absurd hl (by simp [escapeLetters])
    | plain hn _ _ => injection e with e _; subst e; exact absurd (by simp [escapeLetters]) (hn '\\')
    | @code c' g s' q' _ _ hx' h' =>
      have e : h ++ '}' :: (q ++ '"' :: r) = g ++ '}' :: (q' ++ '"' :: r') := by simpa using e
      obtain ⟨rfl, e2⟩ := hex_split hx.digits hx'.digits e
      obtain ⟨rfl, rfl⟩ := ih h' e2
      have : c.toNat = c'.toNat := hx.value.symm.trans hx'.value
      exact ⟨by rw [Char.toNat_inj.1 this], rfl⟩

/-- C101: a visitor who is told that a file is no Rust program can read the file off the message: no other content gives a message that begins like this. -/
theorem C101_read {plain : Char → Bool} {pre content content' q q' r r' : Str} (h : Quoted plain content q) (h' : Quoted plain content' q')
    (e : pre ++ q ++ r = pre ++ q' ++ r') : content = content' ∧ r = r' := by
  obtain ⟨b, h, rfl⟩ := h
  obtain ⟨b', h', rfl⟩ := h'
  refine quoted_delimited h h' ?_
  simpa using e

theorem hasDotDot_slash (a c : Str) : hasDotDot (a ++ '/' :: c) = (hasDotDot a || hasDotDot c) := by
  match a with
  | [] => rfl
  | [x] => 
    by_cases hx : x = '.'
    · subst hx; rfl
    · rw [Bool.eq_iff_iff]; simp [hasDotDot]
  | x :: y :: a =>
    have ih := hasDotDot_slash (y :: a) c
    by_cases h : x = '.' ∧ y = '.'
    · obtain ⟨rfl, rfl⟩ := h
      rfl
    · have e : ∀ t, hasDotDot (x :: y :: t) = hasDotDot (y :: t) := by
        intro t
        rw [hasDotDot]
        rintro _ rfl h'
        cases h'
        exact h ⟨rfl, rfl⟩
      show hasDotDot (x :: y :: (a ++ '/' :: c)) = _
      rw [e, e]
      exact ih

theorem dotDot_join {cs : List Str} (h : ∀ p ∈ cs, ¬ DotDot p) : ¬ DotDot (joinStr (str% "/") cs) := by
  rw [← hasDotDot_iff]
  induction cs with
  | nil => simp [joinStr, hasDotDot]
  | cons p cs ih =>
    have hp := h p List.mem_cons_self
    rw [← hasDotDot_iff] at hp
    have ih := ih fun q hq => h q (List.mem_cons_of_mem _ hq)
    cases cs with
    | nil => exact hp
    | cons q cs =>
      rw [show joinStr (str% "/") (p :: q :: cs) = p ++ '/' :: joinStr (str% "/") (q :: cs) by simp [joinStr], hasDotDot_slash]
      simp [hp, ih]

/-- The tokens of `.[.]`. -/
def climbToks : List GlobTok := [.char '.', .within [.single '.']]

theorem tok_climb : parseGlob none (str% ".[.]") = some climbToks := by
  rw [parse_char none (by decide) (by decide) (by decide)]
  have := parse_among (some '.') (x := '.') (body := []) (s := []) (by decide) (by simp)
  simp only [List.nil_append, List.cons_append] at this
  rw [this, parse_nil]
  rfl

theorem climb_matches (n : Str) : globMatches climbToks n = true ↔ n = str% ".." := by
  rw [globMatches_iff (by simp [climbToks])]
  constructor
  · intro h
    cases h with
    | @one _ _ c s h1 h =>
      cases h with
      | @one _ _ c' s' h2 h =>
        cases h
        have h1 : c = '.' := by simpa [GlobTok.accepts] using h1
        have h2 : c' = '.' := by simpa [GlobTok.accepts, CharSpec.has] using h2
        rw [h1, h2]
  · rintro rfl
    exact (globMatches_iff (by simp [climbToks]) _).1 (by decide)

theorem walk_climb {ps : List (List GlobTok)} (h0 : ps ≠ []) {spot : GlobSpot} {es : GlobEntries} (hd : spot.node = .dir es) (hn : ∀ n, ¬ HasEntry es (str% "..") n)
    (dirs : Bool) (path : Path) : globWalk dirs false (climbToks :: ps) spot path = globWalk dirs false ps spot.parent (path ++ [.parent]) := by
  have hl : globLiteral climbToks = none := rfl
  have hm : globMatches climbToks (str% "..") = true := by decide
  have hm' : globMatches climbToks (str% ".") = false := by decide
  have he : (es.here (spot.node :: spot.up) path).filter (fun e => globMatches climbToks e.1) = [] := by
    rw [List.filter_eq_nil_iff]
    rintro ⟨s, c, p⟩ h h1
    rw [climb_matches] at h1
    dsimp only at h1
    subst h1
    exact hn _ (mem_here.1 h).1
  rw [hd] at he
  rw [globWalk]
  simp only [if_neg (show ¬ (climbToks = [.anyRec]) by simp [climbToks]), hl, if_neg h0]
  rw [if_neg (by simp), hd]
  simp only [he, hm, hm']
  simp [climbToks]

theorem walk_above {k : Nat} {spot top : GlobSpot} (h : Above spot k top) {ps : List (List GlobTok)} (h0 : ps ≠ []) (dirs : Bool) (path : Path) :
    globWalk dirs false (List.replicate k climbToks ++ ps) spot path = globWalk dirs false ps top (path ++ List.replicate k .parent) := by
  induction h generalizing path with
  | here => simp
  | @up s t k es hd hn _ ih =>
    rw [List.replicate_succ, List.cons_append, walk_climb (by simp [h0]) hd hn, ih]
    simp [List.replicate_succ]

theorem walk_names {ns : List Str} (h0 : ns ≠ []) {spot file : GlobSpot} (h : Goes spot (ns.map .normal) file) (path : Path) :
    globWalk false false (ns.map fun n => n.map .char) spot path = [bare path ++ ns.map .normal] := by
  induction ns generalizing spot path with
  | nil => exact absurd rfl h0
  | cons n ns ih =>
    rw [List.map_cons] at h
    cases h with
    | @name _ c _ _ _ hn hc h =>
      cases ns with
      | nil =>
        simp only [List.map_cons, List.map_nil, globWalk, if_neg (plain_not_any n), literal_plain, hc, if_neg hn.dots.2.1, if_neg hn.dots.2.2, if_neg hn.dots.1, globJoin_bare]
        simp
      | cons m ns =>
        rw [List.map_cons, walk_child ⟨hn.dots.2.1, hn.dots.2.2, hn.dots.1⟩ (by simp) hc, ih (by simp) h, bare_join]
        simp

theorem goes_names {ns : List Str} {spot file : GlobSpot} (h : Goes spot (ns.map .normal) file) : ∀ n ∈ ns, NoMeaning n := by
  induction ns generalizing spot with
  | nil => simp
  | cons n ns ih =>
    rw [List.map_cons] at h
    cases h with
    | name hn _ h =>
      intro m hm
      rcases List.mem_cons.1 hm with rfl | hm
      · exact hn
      · exact ih h m hm

theorem glob_climbs {d : GlobDisk} {base : Path} {repo : GlobSpot} (hr : RepoAt d base repo) {k : Nat} {ns : List Str} (ho : Outside repo k ns) :
    ∃ pre, (pre = base ∨ pre = undotted base) ∧
      globOn d (base.display ++ str% "/" ++ climbing k ns) = some [outsidePath pre k ns] := by
  obtain ⟨top, file, h1, h2⟩ := ho.there
  have hn := goes_names h2
  have hc : ∀ p ∈ List.replicate k (str% ".[.]") ++ ns, p = str% ".[.]" ∨ NoMeaning p := by
    intro p hp
    rcases List.mem_append.1 hp with hp | hp
    · exact .inl (List.eq_of_mem_replicate hp)
    · exact .inr (hn p hp)
  have hps : List.Forall₂ (fun p ts => parseGlob none p = some ts) (List.replicate k (str% ".[.]") ++ ns) (List.replicate k climbToks ++ ns.map fun n => n.map .char) := by
    refine List.rel_append ?_ ?_
    · clear h1 hc ho
      induction k with
      | zero => exact .nil
      | succ k ih => exact .cons tok_climb ih
    · clear h2 hc ho
      induction ns with
      | nil => exact .nil
      | cons n ns ih => exact .cons (parse_plain (hn n List.mem_cons_self).wild none) (ih fun m hm => hn m (List.mem_cons_of_mem _ hm))
  have hg : ∀ p ∈ List.replicate k (str% ".[.]") ++ ns, GoodComp p := by
    intro p hp
    rcases hc p hp with rfl | h
    · exact .inr (.same (by decide) (by decide) (.among (x := '.') (body := []) (by decide) (by simp) .done))
    · exact .inr (plain_good h.wild)
  have hn' : ∀ p ∈ List.replicate k (str% ".[.]") ++ ns, '/' ∉ p ∧ p ≠ [] := by
    intro p hp
    rcases hc p hp with rfl | h
    · decide
    · exact ⟨h.slash, h.dots.1⟩
  obtain ⟨path, h3, h4, h5⟩ := repo_walk hr (by simp [ho.some_]) hn' hg hps
  refine ⟨path, h4, ?_⟩
  unfold climbing outsidePath
  rw [h5, walk_above h1 (by simp [ho.some_]), walk_names ho.some_ h2]
  congr 3
  unfold bare
  rw [if_neg]
  intro h
  have := congrArg List.getLast? h
  have hk := ho.up
  rw [List.getLast?_append_of_ne_nil _ (by simp; omega), List.getLast?_replicate] at this
  simp [Nat.ne_of_gt hk] at this

theorem mem_joinStr {c : Char} {sep : Str} {cs : List Str} (h : c ∈ joinStr sep cs) : c ∈ sep ∨ ∃ p ∈ cs, c ∈ p := by
  induction cs with
  | nil => simp [joinStr] at h
  | cons p cs ih =>
    cases cs with
    | nil => exact .inr ⟨p, by simp, h⟩
    | cons q cs =>
      rw [joinStr] at h
      rcases List.mem_append.1 h with h | h
      · rcases List.mem_append.1 h with h | h
        · exact .inr ⟨p, by simp, h⟩
        · exact .inl h
      · rcases ih h with h | ⟨r, h1, h2⟩
        · exact .inl h
        · exact .inr ⟨r, List.mem_cons_of_mem _ h1, h2⟩

/-- C101 (disagreement): a pattern without `..` lists any file of the machine, and this file alone.  With `.[.]` for each directory to go up, the pattern leads above
the repository, and from there down to the file. -/
theorem C101_false_listed {disk : W.State → GlobDisk} (hW : OnDisk W disk) {base : Path} {maxFiles : Nat} (hm : 0 < maxFiles) {s : W.State} {repo : GlobSpot}
    (hr : RepoAt (disk s) base repo) {k : Nat} {ns : List Str} (ho : Outside repo k ns) :
    ¬ DotDot (climbing k ns) ∧ ∃ pre, (pre = base ∨ pre = undotted base) ∧ Listed W s base (climbing k ns) maxFiles [outsidePath pre k ns] := by
  have hc : ∀ p ∈ List.replicate k (str% ".[.]") ++ ns, ',' ∉ p ∧ ¬ DotDot p := by
    intro p hp
    rcases List.mem_append.1 hp with hp | hp
    · rw [List.eq_of_mem_replicate hp, ← hasDotDot_iff]; decide
    · exact ho.names p hp
  refine ⟨dotDot_join fun p hp => (hc p hp).2, ?_⟩
  obtain ⟨pre, h1, h2⟩ := glob_climbs hr ho
  refine ⟨pre, h1, [climbing k ns], [[outsidePath pre k ns]], ⟨by simp, ?_, rfl⟩, .cons ⟨_, (hW s _).1 _ h2, ?_⟩ .nil, by simp only [List.flatten_cons, List.flatten_nil, List.append_nil, List.length_singleton]; omega, by simp, by simp⟩
  · intro p hp
    cases List.mem_singleton.1 hp
    unfold climbing
    intro h
    rcases mem_joinStr h with h | ⟨q, h, h'⟩
    · exact absurd h (by decide)
    · exact (hc q h).1 h'
  · unfold outsidePath
    rw [List.filter_cons_of_pos, List.filter_nil]
    have hl := ho.last
    have h0 := ho.some_
    rw [List.getLast?_append_of_ne_nil _ (by simpa using h0), List.getLast?_map]
    cases h : ns.getLast? with
    | none => simp
    | some n => rw [h] at hl; simpa using hl

theorem climb_errs {disk : W.State → GlobDisk} (hW : OnDisk W disk) {env : Env} {base : Path} {rev : Str} {params : CompareParams} (hi : params.ignoreErrors = false)
    {maxFiles : Nat} (hm : 0 < maxFiles) {s : Run W} {s1 : W.State} {L : List Event} (hc : CheckedOut W rev params.shouldPull params.gitForce s.state L s1) {repo : GlobSpot}
    (hr : RepoAt (disk s1) base repo) {k : Nat} {ns : List Str} (ho : Outside repo k ns) {content e : Str} (ht : TextOutside (W.fs s1) base k ns content)
    (hs : env.syn content = .error e) :
    ∃ pre, (pre = base ∨ pre = undotted base) ∧ ErrsTo (useRev env base rev params (climbing k ns) maxFiles) s
      ((outsidePath pre k ns).display ++ str% ": syn refused to parse content: " ++ debugStr env.cc.plain content ++ str% ": " ++ e) s1 := by
  obtain ⟨-, pre, h1, h2⟩ := C101_false_listed hW hm hr ho
  refine ⟨pre, h1, ?_⟩
  have h3 : ((gitCheckout rev params.shouldPull params.gitForce).mapErr (debugStr env.cc.plain) : Act W Unit) s = (.ok (), ⟨s1, s.log ++ L⟩) :=
    Act.mapErr_ok.2 ((C42_checkout_ok _ _ _ _ _).2 ⟨L, hc, rfl⟩)
  have h4 := (C38_listed base (climbing k ns) maxFiles ⟨s1, s.log ++ L⟩ _ _).2 ⟨h2, _, splitChar_pieces _, rfl⟩
  have h5 := ht pre h1
  generalize outsidePath pre k ns = f at *
  have h6 : parseFileInRepo env (W.fs s1) base f = .err (f.display ++ str% ": syn refused to parse content: " ++ debugStr env.cc.plain content ++ str% ": " ++ e) := by
    unfold parseFileInRepo readFile
    rw [h5]
    show (PathStripping.repoRelative.strip base f >>= fun name => withFile f (parseContent env.syn env.cc name content)) = _
    have : ∃ n, PathStripping.repoRelative.strip base f = .ok n := ⟨_, rfl⟩
    obtain ⟨n, hn⟩ := this
    rw [hn]
    show withFile f (parseContent env.syn env.cc n content) = _
    unfold parseContent
    rw [hs]
    simp [withFile]
  refine errsTo_bind.2 (.inr ⟨(), _, h3, errsTo_bind.2 (.inr ⟨_, _, h4, ?_⟩)⟩)
  rw [hi]
  refine ⟨_, Prod.ext (?_ : parseFilesInRepo env (W.fs s1) base [f] = _) rfl⟩
  unfold parseFilesInRepo parseAll
  rw [h6]
  rfl

/-- C101 (disagreement): the file is shown.  Whatever readable text file there is on the machine that is no Rust program, there is a pattern without `..` for which the
comparison fails with a message that has the whole text of the file, in quotes. -/
theorem C101_false_text {disk : W.State → GlobDisk} (hW : OnDisk W disk) (b : Build) (h : HashOrder) (rx : RegexEngine) {env : Env} {base : Path} {old : Str} (new : Str)
    {params : CompareParams} (hi : params.ignoreErrors = false) (filter : FilterParams) {maxFiles : Nat} (hm : 0 < maxFiles) {s : Run W} {s1 : W.State} {L : List Event}
    (hc : CheckedOut W old params.shouldPull params.gitForce s.state L s1) {repo : GlobSpot} (hr : RepoAt (disk s1) base repo) {k : Nat} {ns : List Str}
    (ho : Outside repo k ns) {content e : Str} (ht : TextOutside (W.fs s1) base k ns content) (hs : env.syn content = .error e) :
    ∃ pre q, (pre = base ∨ pre = undotted base) ∧ Quoted env.cc.plain content q ∧
      (compareCommits b h rx env base old new params filter (climbing k ns) maxFiles s).1 =
        .err ((outsidePath pre k ns).display ++ str% ": syn refused to parse content: " ++ q ++ str% ": " ++ e) := by
  obtain ⟨hd, -⟩ := C101_false_listed hW hm hr ho
  obtain ⟨pre, h1, h2⟩ := climb_errs hW hi hm hc hr ho ht hs
  refine ⟨pre, _, h1, C100_quoted _ _, ?_⟩
  rw [compareCommits_revs, if_neg (by rwa [hasDotDot_iff])]
  obtain ⟨l, h3⟩ := errsTo_bind.2 (.inl h2)
  exact congrArg Prod.fst h3

/-- C101 (disagreement): from the request to the file on the page.  If nothing is going on and the old revision can be checked out, then a request with such a pattern is answered, in
whatever order the server works, with a page that has the text of the file. -/
theorem C101_false_page {disk : W.State → GlobDisk} (hW : OnDisk W disk) {s : Site} {m : Machine} {args : List Str} {cmd : ServerCmd} (hS : s.Started m args cmd)
    {st : SiteState W.State} (hR : s.Reachable W st) (hq : AllDone st.conf) (hp : st.conf.sh.poisoned = false)
    {r : HttpRequest} (hreq : Requests r (str% "/compare")) {ps : List (Str × Str)} (hs : SpellsPairs ps r.query) {asked a : CompareArgs} (hA : Asks ps asked)
    (ha : a = { asked with new := s.ent.decode asked.new, old := s.ent.decode asked.old, pathPattern := s.ent.decode asked.pathPattern })
    (hrepo : a.repo ∈ cmd.repos) (hn : NotRecent st.conf a) (hi : a.ignoreErrors = false) {s1 : W.State} {L : List Event}
    (hc : CheckedOut W (trim a.old) (decide (a.gitPull ≠ some false)) true (st.conf.sh.repo a.repo) L s1) {repo : GlobSpot}
    (hr : RepoAt (disk s1) (cmd.root.join a.repo) repo) {k : Nat} {ns : List Str} (ho : Outside repo k ns) (hpat : trim a.pathPattern = climbing k ns) {content e : Str}
    (ht : TextOutside (W.fs s1) (cmd.root.join a.repo) k ns content) (hsyn : s.srv.env.syn content = .error e) :
    (∃ g x, s.Step W st (g 0) ∧ (g 0).inbox = st.inbox ++ [(r, x)] ∧ Undisturbed W s g) ∧
    ∃ pre q, (pre = cmd.root.join a.repo ∨ pre = undotted (cmd.root.join a.repo)) ∧ Quoted s.srv.env.cc.plain content q ∧
      ∀ g x, s.Step W st (g 0) → (g 0).inbox = st.inbox ++ [(r, x)] → Undisturbed W s g →
        ∃ n page, s.Replied (g n) st.inbox.length ⟨500, textHtml, page⟩ ∧
          textOf (tokens page) (str% "h2") = (outsidePath pre k ns).display ++ str% ": syn refused to parse content: " ++ q ++ str% ": " ++ e := by
  have hacc := accept_compare s hreq hs hA
  rw [← ha] at hacc
  obtain ⟨-, -, hs'⟩ := C89_serves hS a.repo
  obtain ⟨-, -, hk, -⟩ := hs' hrepo
  obtain ⟨hd, -⟩ := C101_false_listed hW (maxFiles := 6000) (by decide) hr ho
  obtain ⟨pre, h1, h2⟩ := climb_errs hW (env := s.srv.env) (s := ⟨st.conf.sh.repo a.repo, []⟩)
    (params := { method := a.method, unit := a.unit, ignoreErrors := a.ignoreErrors, gitPull := a.gitPull ≠ some false, offline := false, gitForce := true })
    hi (maxFiles := 6000) (by decide) (by simpa [CompareParams.shouldPull] using hc) hr ho ht hsyn
  refine ⟨?_, pre, _, h1, C100_quoted _ _, fun g x hg hg0 h => fails_core hS hR hq hp hacc hrepo hn (fun h' => ?_) hg hg0 h⟩
  · have hst := Site.Step.later (W := W) (st := st) r hacc
    obtain ⟨g, e, hu⟩ := undisturbed_exists (.step hR hst)
    exact ⟨g, _, e ▸ hst, by rw [e], hu⟩
  · obtain ⟨repo', filter, out, h3, h4, h5, h6, h7⟩ := doCompare_alone (W := W) (srv := s.srv) (a := a) (ho := h') (st := st.conf.sh.repo a.repo)
      (by rw [hk]; exact nofun) (r := _) (fi := _) rfl
    rw [h6]
    rw [hk] at h3
    cases h3
    rw [h5, hpat, compareCommits_revs, if_neg (by rwa [hasDotDot_iff])]
    obtain ⟨l, h8⟩ := errsTo_bind.2 (.inl h2)
    rw [h8]
    rfl

/-! ### A concrete disk -/

/-- A repository, and two directories above it a file. -/
def exLeakRoot : GlobNode := .dir (.cons (str% "passwd") .file (.cons (str% "r") (.dir (.cons (str% "repo") (.dir (.cons (str% "a.rs") .file .nil)) .nil)) .nil))

/-- The disk; the server is started in the directory with the file. -/
def exLeakDisk : GlobDisk := ⟨exLeakRoot, ⟨exLeakRoot, []⟩⟩

/-- The world with this disk; all git commands succeed. -/
def exLeakWorld : World where
  State := Unit
  git s _ := (.exited true [] [] true, s)
  glob _ p := match globOn exLeakDisk p with
    | some l => .ok (l.map .ok)
    | none => .error (str% "refused")
  fs _ f := if f.getLast? = some (.normal (str% "passwd")) then .ok (str% "root:x:0\n") else .error (str% "not there")

theorem exLeak_onDisk : OnDisk exLeakWorld (fun _ => exLeakDisk) := by
  intro s p
  constructor
  · intro l h
    simp only [exLeakWorld, h]
  · intro h
    exact ⟨str% "refused", by simp only [exLeakWorld, h]⟩

theorem exLeak_repo : ∃ repo, RepoAt exLeakDisk [.normal (str% "r"), .normal (str% "repo")] repo ∧ Outside repo 2 [str% "passwd"] ∧ DistinctNames repo.node := by
  refine ⟨_, .relative (by simp) (.name ⟨by decide, by decide, by decide⟩ rfl (.name ⟨by decide, by decide, by decide⟩ rfl .stop)), ⟨by decide, ⟨_, _, .up rfl ?_ (.up rfl ?_ .here), .name ⟨by decide, by decide, by decide⟩ rfl .stop⟩,
    by simp, ?_, by decide⟩, okNames_distinct rfl⟩
  · rintro n (_ | ⟨_ | _⟩)
  · rintro n (_ | ⟨_ | _⟩)
  · intro n hn
    cases List.mem_singleton.1 hn
    rw [← hasDotDot_iff]
    decide

/-- The request. -/
def exLeakArgs : CompareArgs := { exAskArgs with pathPattern := str% ".[.]/.[.]/passwd" }

/-- The pairs of its query. -/
def exLeakPairs : List (Str × Str) :=
  [(str% "repo", str% "repo"), (str% "old", str% "v1"), (str% "new", str% "v2"), (str% "path_pattern", str% ".[.]/.[.]/passwd"),
    (str% "ignore_errors", str% "false"), (str% "threshold", str% "0"), (str% "unit", str% "weight"), (str% "git_pull", str% "false"),
    (str% "method", str% "guess-worst")]

theorem exLeak_syn : rustSyn (str% "root:x:0\n") = .error (str% "refused") := by
  rfl

/-- All hypotheses of `C101_false_page` are met: the page shows the file. -/
theorem C101_example : ∃ r, Requests r (str% "/compare") ∧
    (∃ g x, exSite.Step exLeakWorld ⟨initial exLeakWorld (fun _ => ()) 0, []⟩ (g 0) ∧ (g 0).inbox = [(r, x)] ∧ Undisturbed exLeakWorld exSite g) ∧
    ∀ g x, exSite.Step exLeakWorld ⟨initial exLeakWorld (fun _ => ()) 0, []⟩ (g 0) → (g 0).inbox = [(r, x)] → Undisturbed exLeakWorld exSite g →
      ∃ n page, exSite.Replied (g n) 0 ⟨500, textHtml, page⟩ ∧
        textOf (tokens page) (str% "h2") = str% "r/repo/../../passwd: syn refused to parse content: \"root:x:0\\n\": refused" := by
  obtain ⟨cmd, hS⟩ := exSite_started
  obtain ⟨repo, hr, ho, -⟩ := exLeak_repo
  have h0 : exSite.Reachable exLeakWorld ⟨initial exLeakWorld (fun _ => ()) 0, []⟩ := .init _ _
  have hreq : Requests ⟨str% "GET", utf8 (str% "/compare"), formSerialize exLeakPairs⟩ (str% "/compare") :=
    (C89_route ⟨str% "GET", utf8 (str% "/compare"), formSerialize exLeakPairs⟩ (h := .compare) rfl).1 (by decide +kernel)
  have hin : exLeakArgs.repo ∈ cmd.repos := (C89_serves hS (str% "repo")).1.1 (by show _ ∈ [str% "repo"]; simp)
  obtain ⟨-, -, hs⟩ := C89_serves hS exLeakArgs.repo
  obtain ⟨-, -, hk, -⟩ := hs hin
  have hk : some [.normal (str% "r"), .normal (str% "repo")] = some (cmd.root.join exLeakArgs.repo) := hk
  have hk := Option.some.inj hk
  have hc : CheckedOut exLeakWorld (trim exLeakArgs.old) (decide (exLeakArgs.gitPull ≠ some false)) true () _ () :=
    ⟨[], _, _, .inr ⟨rfl, rfl, rfl⟩, rfl, .inr (.inl ⟨rfl, ⟨_, rfl, ⟨_, _, _, rfl⟩, rfl⟩⟩)⟩
  obtain ⟨h1, pre, q, h2, h3, h4⟩ := C101_false_page exLeak_onDisk hS h0 (by intro i pc h; cases h) rfl hreq (C69_serialized exLeakPairs)
    ((C69_args exLeakPairs exLeakArgs).1 rfl) (a := exLeakArgs) rfl hin (by intro id ho st fi v t h; cases h) rfl hc (hk ▸ hr) ho (by decide)
    (content := str% "root:x:0\n") (by rintro pre (rfl | rfl) <;> rw [← hk] <;> rfl) exLeak_syn
  refine ⟨_, hreq, h1, fun g x ha hb hc => ?_⟩
  obtain ⟨n, page, h5, h6⟩ := h4 g x ha hb hc
  refine ⟨n, page, h5, h6.trans ?_⟩
  have hq := quoted_unique h3 (C100_quoted _ _)
  rw [hq]
  have hpre : pre = [.normal (str% "r"), .normal (str% "repo")] := by
    rcases h2 with rfl | rfl
    · rw [← hk]
    · rw [← hk]; rfl
  rw [hpre]
  decide +kernel

/-- Another disk with the same repository. -/
def exOtherRoot : GlobNode := .dir (.cons (str% "other") .file (.cons (str% "r") (.dir (.cons (str% "repo") (.dir (.cons (str% "a.rs") .file .nil)) .nil)) .nil))

/-- Patterns on this disk. -/
def exOtherGlob (_ : exLeakWorld.State) (p : Str) : Except Str (List (Except Str Path)) :=
  match globOn ⟨exOtherRoot, ⟨exOtherRoot, []⟩⟩ p with
  | some l => .ok (l.map .ok)
  | none => .error (str% "refused")

/-- Its files. -/
def exOtherFs (_ : exLeakWorld.State) : Fs := fun f => if f = [.normal (str% "passwd")] then .error (str% "not there") else exLeakWorld.fs () f

/-- The hypotheses of `C101_inside` are met by two machines with different files above the repository. -/
example : OnDisk exLeakWorld (fun _ => exLeakDisk) ∧ OnDisk (elsewhere exLeakWorld exOtherGlob exOtherFs) (fun _ => ⟨exOtherRoot, ⟨exOtherRoot, []⟩⟩) ∧
    SameInside (fun _ => exLeakDisk) (fun _ => ⟨exOtherRoot, ⟨exOtherRoot, []⟩⟩) exLeakWorld.fs exOtherFs [.normal (str% "r"), .normal (str% "repo")] ∧
    exOtherFs () [.normal (str% "passwd")] ≠ exLeakWorld.fs () [.normal (str% "passwd")] := by
  refine ⟨exLeak_onDisk, fun s p => ⟨fun l h => ?_, fun h => ⟨str% "refused", ?_⟩⟩, fun _ => ⟨⟨_, [_, exLeakRoot]⟩, ⟨_, [_, exOtherRoot]⟩,
    .relative (by simp) (.name ⟨by decide, by decide, by decide⟩ rfl (.name ⟨by decide, by decide, by decide⟩ rfl .stop)),
    .relative (by simp) (.name ⟨by decide, by decide, by decide⟩ rfl (.name ⟨by decide, by decide, by decide⟩ rfl .stop)), rfl, okNames_distinct rfl, fun ns n _ => ?_⟩, ?_⟩
  · simp only [elsewhere, exOtherGlob, h]
  · simp only [elsewhere, exOtherGlob, h]
  · unfold exOtherFs
    rw [if_neg (by simp [undotted])]
    rfl
  · intro h
    cases h

end Swc
