/-
C109: how much work a comparison takes, and what the server keeps.
-/
import Verif.Spec.Work
import Verif.Props.Git
import Verif.Props.Alive
import Verif.Props.WebRun

namespace Swc

open Spec

/-! ### What programs do -/

theorem does_bind {α β : Type} {p : Prog α} {f : α → Prog β} {l : List Deed} {r : Res β} (h : Does (p >>= f) l r) :
    ∃ l1 l2, l = l1 ++ l2 ∧ ((∃ a, Does p l1 (.ok a) ∧ Does (f a) l2 r) ∨ (l2 = [] ∧ (∀ b, r ≠ .ok b) ∧ ∃ r', Does p l1 r')) := by
  change Does (p.andThen f) l r at h
  induction p generalizing l with
  | done r' =>
    cases r' with
    | ok a => exact ⟨[], l, rfl, .inl ⟨a, .done, h⟩⟩
    | err m => rw [Prog.andThen] at h; cases h; exact ⟨[], [], rfl, .inr ⟨rfl, (by intro b h; cases h), _, .done⟩⟩
    | panic => rw [Prog.andThen] at h; cases h; exact ⟨[], [], rfl, .inr ⟨rfl, (by intro b h; cases h), _, .done⟩⟩
    | diverge => rw [Prog.andThen] at h; cases h; exact ⟨[], [], rfl, .inr ⟨rfl, (by intro b h; cases h), _, .done⟩⟩
  | git args k ih =>
    rw [Prog.andThen] at h
    cases h with
    | git o h =>
      obtain ⟨l1, l2, rfl, h'⟩ := ih o h
      refine ⟨.git args :: l1, l2, rfl, ?_⟩
      rcases h' with ⟨a, h1, h2⟩ | ⟨rfl, hb, r', h1⟩
      · exact .inl ⟨a, .git o h1, h2⟩
      · exact .inr ⟨rfl, hb, r', .git o h1⟩
  | glob q k ih =>
    rw [Prog.andThen] at h
    cases h with
    | glob o h =>
      obtain ⟨l1, l2, rfl, h'⟩ := ih o h
      refine ⟨.glob q :: l1, l2, rfl, ?_⟩
      rcases h' with ⟨a, h1, h2⟩ | ⟨rfl, hb, r', h1⟩
      · exact .inl ⟨a, .glob o h1, h2⟩
      · exact .inr ⟨rfl, hb, r', .glob o h1⟩
  | read f' k ih =>
    rw [Prog.andThen] at h
    cases h with
    | read o h =>
      obtain ⟨l1, l2, rfl, h'⟩ := ih o h
      refine ⟨.read f' :: l1, l2, rfl, ?_⟩
      rcases h' with ⟨a, h1, h2⟩ | ⟨rfl, hb, r', h1⟩
      · exact .inl ⟨a, .read o h1, h2⟩
      · exact .inr ⟨rfl, hb, r', .read o h1⟩

theorem does_mapErr {α : Type} {g : Str → Str} {p : Prog α} {l : List Deed} {r : Res α} (h : Does (p.mapErr g) l r) : ∃ r', Does p l r' := by
  induction p generalizing l with
  | done r' => rw [Prog.mapErr] at h; cases h; exact ⟨_, .done⟩
  | git args k ih => rw [Prog.mapErr] at h; cases h with | git o h => obtain ⟨r', h'⟩ := ih o h; exact ⟨r', .git o h'⟩
  | glob args k ih => rw [Prog.mapErr] at h; cases h with | glob o h => obtain ⟨r', h'⟩ := ih o h; exact ⟨r', .glob o h'⟩
  | read args k ih => rw [Prog.mapErr] at h; cases h with | read o h => obtain ⟨r', h'⟩ := ih o h; exact ⟨r', .read o h'⟩

/-- C109: whatever the program does when it is run is among what it can do. -/
theorem C109_runs {α : Type} (W : World) (p : Prog α) (s : W.State) : ∃ l, Does p l (p.run W s).1 := by
  induction p generalizing s with
  | done r => exact ⟨[], .done⟩
  | git args k ih => obtain ⟨l, h⟩ := ih (W.git s args).1 (W.git s args).2; exact ⟨_, .git _ h⟩
  | glob q k ih => obtain ⟨l, h⟩ := ih (W.glob s q) s; exact ⟨_, .glob _ h⟩
  | read f k ih => obtain ⟨l, h⟩ := ih (W.fs s f) s; exact ⟨_, .read _ h⟩

theorem does_gitP {args : List Str} {l : List Deed} {r : Res GitOut} (h : Does (gitP args) l r) : l = [.git args] := by
  cases h with | git o h => cases h; rfl

theorem does_pure {α : Type} {a : α} {l : List Deed} {r : Res α} (h : Does (pure a) l r) : l = [] ∧ r = .ok a := by
  cases h; exact ⟨rfl, rfl⟩

theorem does_done {α : Type} {a : Res α} {l : List Deed} {r : Res α} (h : Does (.done a) l r) : l = [] ∧ r = a := by
  cases h; exact ⟨rfl, rfl⟩

theorem does_pull {rev : Str} {l : List Deed} {r : Res Unit} (h : Does (gitPullP rev) l r) : l = [.git [str% "fetch", str% "origin", rev]] := by
  obtain ⟨l1, l2, rfl, ⟨a, h1, h2⟩ | ⟨rfl, hb, r', h1⟩⟩ := does_bind h
  · rw [does_gitP h1, (does_done h2).1]; rfl
  · rw [does_gitP h1]; rfl

theorem prefix_cons_append {α : Type} {x : α} {l m : List α} (h : l <+: m) : [x] ++ l <+: x :: m := by
  obtain ⟨t, rfl⟩ := h; exact ⟨t, rfl⟩

theorem does_fetch_then {β : Type} {pull : Bool} {rev : Str} {f : Unit → Prog β} {l : List Deed} {r : Res β} {m : List Deed}
    (h : Does ((if pull then gitPullP rev else pure ()) >>= f) l r) (hf : ∀ l r, Does (f ()) l r → l <+: m) :
    l <+: (if pull then [Deed.git [str% "fetch", str% "origin", rev]] else []) ++ m := by
  obtain ⟨l1, l2, rfl, h'⟩ := does_bind h
  have h1 : l1 = if pull then [Deed.git [str% "fetch", str% "origin", rev]] else [] := by
    cases pull with
    | true => rcases h' with ⟨_, h, -⟩ | ⟨-, -, _, h⟩ <;> exact does_pull h
    | false => rcases h' with ⟨_, h, -⟩ | ⟨-, -, _, h⟩ <;> exact (does_pure h).1
  rw [← h1]
  refine (List.prefix_append_right_inj l1).2 ?_
  rcases h' with ⟨⟨⟩, -, h⟩ | ⟨rfl, -⟩
  · exact hf _ _ h
  · exact List.nil_prefix

theorem does_checkout {rev : Str} {pull force : Bool} {l : List Deed} {r : Res Unit} (h : Does (gitCheckoutP rev pull force) l r) :
    l <+: revisionCommands rev pull force := by
  unfold gitCheckoutP at h
  unfold revisionCommands
  cases force with
  | true =>
    rw [if_pos rfl] at h
    unfold gitResetP at h
    refine does_fetch_then (pull := pull) (f := fun _ => gitP [str% "reset", str% "--hard", str% "origin/" ++ rev] >>= fun out => match out with
      | .exited true _ _ _ => pure ()
      | _ => gitP [str% "reset", str% "--hard", rev] >>= fun out => .done (expectSuccess (str% "Failed to reset branch") out)) (by cases pull <;> exact h) fun l r h => ?_
    obtain ⟨l1, l2, rfl, ⟨o, h1, h2⟩ | ⟨rfl, hb, r', h1⟩⟩ := does_bind h
    · rw [does_gitP h1]
      refine prefix_cons_append ?_
      split at h2
      · rw [(does_pure h2).1]; exact List.nil_prefix
      · obtain ⟨l1, l2, rfl, ⟨o, h1, h2⟩ | ⟨rfl, hb, r', h1⟩⟩ := does_bind h2
        · rw [does_gitP h1, (does_done h2).1]; exact List.prefix_rfl
        · rw [does_gitP h1]; exact List.prefix_rfl
    · rw [does_gitP h1]; exact ⟨_, rfl⟩
  | false =>
    rw [if_neg (by decide)] at h
    refine does_fetch_then (pull := pull) (f := fun _ => gitP [str% "checkout", rev] >>= fun out => .done (expectSuccess (str% "Failed to checkout branch") out)) (by cases pull <;> exact h) fun l r h => ?_
    obtain ⟨l1, l2, rfl, ⟨o, h1, h2⟩ | ⟨rfl, hb, r', h1⟩⟩ := does_bind h
    · rw [does_gitP h1, (does_done h2).1]; exact List.prefix_rfl
    · rw [does_gitP h1]; exact List.prefix_rfl

theorem does_glob {q : Str} {l : List Deed} {r : Res (List Path)} (h : Does (globP q) l r) : l = [.glob q] := by
  cases h with | glob o h => cases o <;> cases h <;> rfl

theorem does_listLoop {base : Path} {maxFiles : Nat} {ps : List Str} {acc : List Path} {l : List Deed} {r : Res (List Path)}
    (h : Does (listLoopP base maxFiles ps acc) l r) (ha : acc.length ≤ maxFiles) :
    l <+: ps.map (fun p => .glob (base.display ++ str% "/" ++ p)) ∧ ∀ paths, r = .ok paths → paths.length ≤ maxFiles := by
  induction ps generalizing acc l with
  | nil => obtain ⟨rfl, rfl⟩ := does_pure h; exact ⟨List.nil_prefix, fun _ h => by cases h; exact ha⟩
  | cons p ps ih =>
    rw [listLoopP] at h
    obtain ⟨l1, l2, rfl, ⟨a, h1, h2⟩ | ⟨rfl, hb, r', h1⟩⟩ := does_bind h
    · rw [does_glob h1]
      dsimp only at h2
      split at h2
      · obtain ⟨rfl, rfl⟩ := does_done h2
        exact ⟨⟨_, rfl⟩, fun _ h => nomatch h⟩
      · rename_i hle
        obtain ⟨i1, i2⟩ := ih h2 (by omega)
        exact ⟨prefix_cons_append i1, i2⟩
    · rw [does_glob h1]
      exact ⟨⟨_, rfl⟩, fun _ h => absurd h (hb _)⟩

theorem does_listFiles {base : Path} {maxFiles : Nat} {pattern : Str} {l : List Deed} {r : Res (List Path)} (h : Does (listFilesP base pattern maxFiles) l r) :
    l <+: (splitChar ',' pattern).map (fun p => .glob (base.display ++ str% "/" ++ p)) ∧ ∀ paths, r = .ok paths → paths.Nodup ∧ paths.length ≤ maxFiles := by
  unfold listFilesP at h
  obtain ⟨l1, l2, rfl, ⟨a, h1, h2⟩ | ⟨rfl, hb, r', h1⟩⟩ := does_bind h
  · obtain ⟨rfl, rfl⟩ := does_pure h2
    rw [List.append_nil]
    obtain ⟨h3, h4⟩ := does_listLoop h1 (Nat.zero_le _)
    refine ⟨h3, fun paths e => ?_⟩
    cases e
    obtain ⟨p1, p2⟩ := pathSort_spec a
    obtain ⟨d1, -, d3⟩ := dedup_spec p2
    refine ⟨d1.imp (fun {x y} h e => ?_), ?_⟩
    · rw [e, (pathCmp_eq y y).2 rfl] at h; cases h
    · have := h4 a rfl
      rw [← p1.length_eq] at this
      omega
  · rw [List.append_nil]
    exact ⟨(does_listLoop h1 (Nat.zero_le _)).1, fun _ e => absurd e (hb _)⟩

theorem does_readFile {α : Type} {f : Path} {k : Except Str Str → Res α} {l : List Deed} {r : Res α} (h : Does (.read f fun c => .done (k c)) l r) :
    l = [.read f] := by
  cases h with | read o h => cases h; rfl

theorem does_parseAll {env : Env} {repo : Path} {paths : List Path} {l : List Deed} {r : Res (List ChromaticExtrinsic)}
    (h : Does (parseAllP env repo paths) l r) : l <+: paths.map .read := by
  induction paths generalizing l r with
  | nil => rw [(does_pure h).1]; exact List.nil_prefix
  | cons p paths ih =>
    rw [parseAllP] at h
    obtain ⟨l1, l2, rfl, ⟨a, h1, h2⟩ | ⟨rfl, hb, r', h1⟩⟩ := does_bind h
    · rw [does_readFile h1]
      refine prefix_cons_append ?_
      obtain ⟨l1, l2, rfl, ⟨a, h1, h2⟩ | ⟨rfl, hb, r', h1⟩⟩ := does_bind h2
      · rw [(does_pure h2).1, List.append_nil]; exact ih h1
      · rw [List.append_nil]; exact ih h1
    · rw [does_readFile h1]; exact ⟨_, rfl⟩

theorem does_tryParseAll {env : Env} {repo : Path} {paths : List Path} {l : List Deed} {r : Res (List ChromaticExtrinsic)}
    (h : Does (tryParseAllP env repo paths) l r) : l <+: paths.map .read := by
  induction paths generalizing l r with
  | nil => rw [(does_pure h).1]; exact List.nil_prefix
  | cons p paths ih =>
    rw [tryParseAllP] at h
    obtain ⟨l1, l2, rfl, ⟨a, h1, h2⟩ | ⟨rfl, hb, r', h1⟩⟩ := does_bind h
    · rw [does_readFile h1]
      refine prefix_cons_append ?_
      obtain ⟨l1, l2, rfl, ⟨a, h1, h2⟩ | ⟨rfl, hb, r', h1⟩⟩ := does_bind h2
      · rw [(does_pure h2).1, List.append_nil]; exact ih h1
      · rw [List.append_nil]; exact ih h1
    · rw [does_readFile h1]; exact ⟨_, rfl⟩

theorem prefix_map {α β : Type} {f : α → β} {l : List β} {m : List α} (h : l <+: m.map f) : ∃ n, n <+: m ∧ l = n.map f := by
  obtain ⟨t, h⟩ := h
  obtain ⟨n, n', rfl, rfl, -⟩ := List.map_eq_append_iff.1 h.symm
  exact ⟨n, ⟨n', rfl⟩, rfl⟩

theorem does_revision {α : Type} {env : Env} {repo : Path} {rev : Str} {pull force ignore : Bool} {g : Str → Str} {pattern : Str} {maxFiles : Nat}
    {f : List ChromaticExtrinsic → Prog α} {l : List Deed} {r : Res α}
    (h : Does ((gitCheckoutP rev pull force).mapErr g >>= fun _ => listFilesP repo pattern maxFiles >>= fun paths => parseListedP env repo ignore paths >>= f) l r) :
    ∃ l1 l2, l = l1 ++ l2 ∧ RevisionWork repo rev pull force pattern maxFiles l1 ∧ (l2 = [] ∨ ∃ x, Does (f x) l2 r) := by
  obtain ⟨l1, l2, rfl, ⟨⟨⟩, h1, h2⟩ | ⟨rfl, hb, r', h1⟩⟩ := does_bind h
  · obtain ⟨_, h1⟩ := does_mapErr h1
    have hG := does_checkout h1
    obtain ⟨l3, l4, rfl, ⟨paths, h3, h4⟩ | ⟨rfl, hb, r', h3⟩⟩ := does_bind h2
    · obtain ⟨hQ, hP⟩ := does_listFiles h3
      obtain ⟨hn, hl⟩ := hP _ rfl
      have key : ∀ l5 r', Does (parseListedP env repo ignore paths) l5 r' → RevisionWork repo rev pull force pattern maxFiles (l1 ++ (l3 ++ l5)) := by
        intro l5 r' h5
        have h5 : l5 <+: paths.map .read := by
          unfold parseListedP at h5
          split at h5
          · exact does_tryParseAll h5
          · exact does_parseAll h5
        obtain ⟨n, hn', rfl⟩ := prefix_map h5
        exact ⟨l1, l3, n, _, (List.append_assoc _ _ _).symm, hG, splitChar_pieces pattern, hQ, hn.sublist hn'.sublist, Nat.le_trans hn'.length_le hl⟩
      obtain ⟨l5, l6, rfl, ⟨x, h5, h6⟩ | ⟨rfl, hb, r', h5⟩⟩ := does_bind h4
      · exact ⟨l1 ++ (l3 ++ l5), l6, by simp, key _ _ h5, .inr ⟨x, h6⟩⟩
      · exact ⟨l1 ++ (l3 ++ l5), [], by simp, key _ _ h5, .inl rfl⟩
    · exact ⟨l1 ++ l3, [], by simp, ⟨l1, l3, [], _, by simp, hG, splitChar_pieces pattern, (does_listFiles h3).1, .nil, Nat.zero_le _⟩, .inl rfl⟩
  · obtain ⟨_, h1⟩ := does_mapErr h1
    exact ⟨l1, [], rfl, ⟨l1, [], [], _, by simp, does_checkout h1, splitChar_pieces pattern, List.nil_prefix, .nil, Nat.zero_le _⟩, .inl rfl⟩

/-- C109: whatever git, the directories and the files answer, a comparison does the work for the old revision and then the work for the new one, and for each of
them the git commands, then one walk for each piece of the pattern, then each file at most once; and it stops at some point of this. -/
theorem C109_commits {b : Build} {ho : HashOrder} {rx : RegexEngine} {env : Env} {repo : Path} {old new : Str} {params : CompareParams} {filter : FilterParams}
    {pattern : Str} {maxFiles : Nat} {l : List Deed} {r : Res (List ExtrinsicDiff)}
    (h : Does (compareCommitsP b ho rx env repo old new params filter pattern maxFiles) l r) :
    l = [] ∨ ∃ l1 l2, l = l1 ++ l2 ∧ RevisionWork repo old params.shouldPull params.gitForce pattern maxFiles l1 ∧
      (l2 = [] ∨ RevisionWork repo new params.shouldPull params.gitForce pattern maxFiles l2) := by
  unfold compareCommitsP at h
  split at h
  · exact .inl (does_done h).1
  · obtain ⟨l1, l2, rfl, h1, h2⟩ := does_revision h
    refine .inr ⟨l1, l2, rfl, h1, ?_⟩
    rcases h2 with rfl | ⟨x, h2⟩
    · exact .inl rfl
    · obtain ⟨l3, l4, rfl, h3, h4⟩ := does_revision h2
      have : l4 = [] := by
        rcases h4 with h | ⟨y, h4⟩
        · exact h
        · exact (does_done h4).1
      subst this
      rw [List.append_nil]
      exact .inr h3

theorem pieces_length {s : Str} {ps : List Str} (h : Pieces s ps) : ps.length = s.count ',' + 1 := by
  obtain ⟨h1, h2, rfl⟩ := h
  induction ps with
  | nil => exact absurd rfl h1
  | cons p ps ih =>
    have hp : p.count ',' = 0 := List.count_eq_zero.2 (h2 p (by simp))
    cases ps with
    | nil => rw [joinStr, hp]; rfl
    | cons q ps =>
      have := ih (by simp) (fun p h => h2 p (List.mem_cons_of_mem _ h))
      rw [joinStr, List.count_append, List.count_append, hp, List.length_cons, this]
      simp
      omega

theorem commands_count (rev : Str) (pull force : Bool) : (revisionCommands rev pull force).length = pull.toNat + (1 + force.toNat) ∧
    gits (revisionCommands rev pull force) = pull.toNat + (1 + force.toNat) := by
  cases pull <;> cases force <;> exact ⟨rfl, rfl⟩

theorem count_zero {α : Type} {p : α → Bool} {l : List α} (h : ∀ x ∈ l, p x = false) : l.countP p = 0 := by
  rw [List.countP_eq_zero]; intro x hx; rw [h x hx]; decide

/-- The work for one revision, counted. -/
theorem C109_revision {repo : Path} {rev : Str} {pull force : Bool} {pattern : Str} {maxFiles : Nat} {l : List Deed}
    (h : RevisionWork repo rev pull force pattern maxFiles l) : gits l ≤ pull.toNat + (1 + force.toNat) ∧ walks l ≤ pattern.count ',' + 1 ∧
      fileReads l ≤ maxFiles ∧ (∀ f, l.count (.read f) ≤ 1) ∧ l.length = gits l + walks l + fileReads l := by
  obtain ⟨G, Q, files, ps, rfl, hG, hP, hQ, hn, hm⟩ := h
  have hQ' : ∀ x ∈ Q, ∃ p, x = .glob p := fun x hx => by
    obtain ⟨p, -, rfl⟩ := List.mem_map.1 (hQ.subset hx); exact ⟨_, rfl⟩
  have hG' : ∀ x ∈ G, ∃ p, x = .git p := fun x hx => by
    have := hG.subset hx
    unfold revisionCommands at this
    cases pull <;> cases force <;> simp at this <;> rcases this with rfl | rfl | rfl <;> exact ⟨_, rfl⟩
  have hF' : ∀ x ∈ files.map Deed.read, ∃ p, x = .read p := fun x hx => by
    obtain ⟨p, -, rfl⟩ := List.mem_map.1 hx; exact ⟨_, rfl⟩
  have all : ∀ {p : Deed → Bool} {l : List Deed}, (∀ x ∈ l, p x = true) → l.countP p = l.length := fun h => List.countP_eq_length.2 h
  have g1 : gits G = G.length := all fun x hx => by obtain ⟨p, rfl⟩ := hG' x hx; rfl
  have g2 : walks G = 0 := count_zero fun x hx => by obtain ⟨p, rfl⟩ := hG' x hx; rfl
  have g3 : fileReads G = 0 := count_zero fun x hx => by obtain ⟨p, rfl⟩ := hG' x hx; rfl
  have q1 : gits Q = 0 := count_zero fun x hx => by obtain ⟨p, rfl⟩ := hQ' x hx; rfl
  have q2 : walks Q = Q.length := all fun x hx => by obtain ⟨p, rfl⟩ := hQ' x hx; rfl
  have q3 : fileReads Q = 0 := count_zero fun x hx => by obtain ⟨p, rfl⟩ := hQ' x hx; rfl
  have f1 : gits (files.map Deed.read) = 0 := count_zero fun x hx => by obtain ⟨p, rfl⟩ := hF' x hx; rfl
  have f2 : walks (files.map Deed.read) = 0 := count_zero fun x hx => by obtain ⟨p, rfl⟩ := hF' x hx; rfl
  have f3 : fileReads (files.map Deed.read) = files.length := (all fun x hx => by obtain ⟨p, rfl⟩ := hF' x hx; rfl).trans (List.length_map _)
  have app : ∀ (p : Deed → Bool) (a c d : List Deed), (a ++ c ++ d).countP p = a.countP p + c.countP p + d.countP p := by intros; rw [List.countP_append, List.countP_append]
  have e1 : gits (G ++ Q ++ files.map Deed.read) = G.length := by
    have := app Deed.isGit G Q (files.map Deed.read)
    unfold gits walks fileReads at *
    omega
  have e2 : walks (G ++ Q ++ files.map Deed.read) = Q.length := by
    have := app Deed.isGlob G Q (files.map Deed.read)
    unfold gits walks fileReads at *
    omega
  have e3 : fileReads (G ++ Q ++ files.map Deed.read) = files.length := by
    have := app Deed.isRead G Q (files.map Deed.read)
    unfold gits walks fileReads at *
    omega
  rw [e1, e2, e3]
  refine ⟨(commands_count rev pull force).1 ▸ hG.length_le, ?_, hm, fun f => ?_, by rw [List.length_append, List.length_append, List.length_map]⟩
  · have := hQ.length_le
    rw [List.length_map, pieces_length hP] at this
    exact this
  · rw [List.count_append, List.count_append, List.count_eq_zero.2 (fun h => by obtain ⟨p, h⟩ := hG' _ h; cases h),
      List.count_eq_zero.2 (fun h => by obtain ⟨p, h⟩ := hQ' _ h; cases h)]
    simp only [Nat.zero_add]
    exact List.nodup_iff_count_le_one.1 (hn.map (fun _ _ h => by cases h; rfl)) _

theorem trim_sublist (s : Str) : List.Sublist (trim s) s := by
  unfold trim
  have h := (List.dropWhile_sublist isSpace (l := (s.dropWhile isSpace).reverse)).reverse
  rw [List.reverse_reverse] at h
  exact h.trans (List.dropWhile_sublist isSpace)

/-- C109: a comparison of the server takes at most six git commands (four if it is asked not to fetch), two walks for each piece of the pattern, and 12000 reads,
no file more than twice; whatever git, the directories and the files answer. -/
theorem C109_work {srv : Server} {ho : HashOrder} {a : CompareArgs} {l : List Deed} {r : Res (List ExtrinsicDiff)} (h : Does (doCompare srv ho a) l r) :
    gits l ≤ 6 ∧ (a.gitPull = some false → gits l ≤ 4) ∧ walks l ≤ 2 * (a.pathPattern.count ',' + 1) ∧ fileReads l ≤ 2 * 6000 ∧
      (∀ f, l.count (.read f) ≤ 2) ∧ l.length = gits l + walks l + fileReads l := by
  have hnil : gits [] ≤ 6 ∧ (a.gitPull = some false → gits [] ≤ 4) ∧ walks [] ≤ 2 * (a.pathPattern.count ',' + 1) ∧ fileReads [] ≤ 2 * 6000 ∧
      (∀ f, ([] : List Deed).count (.read f) ≤ 2) ∧ ([] : List Deed).length = gits [] + walks [] + fileReads [] :=
    ⟨Nat.zero_le _, fun _ => Nat.zero_le _, Nat.zero_le _, Nat.zero_le _, fun _ => Nat.zero_le _, rfl⟩
  have key : ∀ l r path, Does (compareCommitsP srv.build ho srv.rx srv.env path (trim a.old) (trim a.new) (webParams a) (webFilter a) (trim a.pathPattern) 6000) l r →
      gits l ≤ 6 ∧ (a.gitPull = some false → gits l ≤ 4) ∧ walks l ≤ 2 * (a.pathPattern.count ',' + 1) ∧ fileReads l ≤ 2 * 6000 ∧
      (∀ f, l.count (.read f) ≤ 2) ∧ l.length = gits l + walks l + fileReads l := by
    intro l r path h
    have hc := (trim_sublist a.pathPattern).count_le ','
    have hpull : a.gitPull = some false → (webParams a).shouldPull = false := by
      intro h
      simp [CompareParams.shouldPull, webParams, h]
    have hp1 : (webParams a).shouldPull.toNat ≤ 1 := Bool.toNat_le _
    have hf1 : (webParams a).gitForce.toNat = 1 := rfl
    rcases C109_commits h with rfl | ⟨l1, l2, rfl, h1, h2⟩
    · exact hnil
    · obtain ⟨a1, a2, a3, a4, a5⟩ := C109_revision h1
      have h2 : gits l2 ≤ (webParams a).shouldPull.toNat + (1 + (webParams a).gitForce.toNat) ∧ walks l2 ≤ (trim a.pathPattern).count ',' + 1 ∧
          fileReads l2 ≤ 6000 ∧ (∀ f, l2.count (.read f) ≤ 1) ∧ l2.length = gits l2 + walks l2 + fileReads l2 := by
        rcases h2 with rfl | h2
        · exact ⟨Nat.zero_le _, Nat.zero_le _, Nat.zero_le _, fun _ => Nat.zero_le _, rfl⟩
        · exact C109_revision h2
      obtain ⟨b1, b2, b3, b4, b5⟩ := h2
      have e1 : gits (l1 ++ l2) = gits l1 + gits l2 := List.countP_append
      have e2 : walks (l1 ++ l2) = walks l1 + walks l2 := List.countP_append
      have e3 : fileReads (l1 ++ l2) = fileReads l1 + fileReads l2 := List.countP_append
      refine ⟨by omega, fun h => ?_, by omega, by omega, fun f => ?_, by rw [List.length_append]; omega⟩
      · have h0 : (webParams a).shouldPull.toNat = 0 := by rw [hpull h]; rfl
        omega
      · have := a4 f
        have := b4 f
        rw [List.count_append]
        omega
  unfold doCompare at h
  split at h
  · rw [(does_done h).1]; exact hnil
  · obtain ⟨l1, l2, rfl, ⟨x, h1, h2⟩ | ⟨rfl, hb, r', h1⟩⟩ := does_bind h
    · rw [(does_pure h2).1, List.append_nil]
      exact key _ _ _ h1
    · rw [List.append_nil]
      exact key _ _ _ h1

theorem does_branches {srv : Server} {repo : Str} {fetch : Bool} {l : List Deed} {r : Res (List (Str × Str))} (h : Does (branchesP srv repo fetch) l r) :
    l.length ≤ 2 := by
  unfold branchesP at h
  split at h
  · rw [(does_done h).1]; exact Nat.zero_le _
  · have hf : ∀ l r, Does (fetchP fetch) l r → l.length ≤ 1 := by
      intro l r h
      unfold fetchP at h
      split at h
      · obtain ⟨l1, l2, rfl, ⟨o, h1, h2⟩ | ⟨rfl, hb, r', h1⟩⟩ := does_bind h
        · rw [does_gitP h1, (does_done h2).1]; exact Nat.le_refl _
        · rw [does_gitP h1]; exact Nat.le_refl _
      · rw [(does_pure h).1]; exact Nat.zero_le _
    obtain ⟨l1, l2, rfl, ⟨o, h1, h2⟩ | ⟨rfl, hb, r', h1⟩⟩ := does_bind h
    · have := hf _ _ h1
      have h3 : l2.length ≤ 1 := by
        obtain ⟨l3, l4, rfl, ⟨o, h3, h4⟩ | ⟨rfl, hb, r', h3⟩⟩ := does_bind h2
        · obtain ⟨l5, l6, rfl, ⟨o, h5, h6⟩ | ⟨rfl, hb, r', h5⟩⟩ := does_bind h4
          · rw [does_gitP h3, (does_done h5).1, (does_done h6).1]; exact Nat.le_refl _
          · rw [does_gitP h3, (does_done h5).1]; exact Nat.le_refl _
        · rw [does_gitP h3]; exact Nat.le_refl _
      rw [List.length_append]
      omega
    · have := hf _ _ h1
      rw [List.append_nil]
      omega

/-! ### The steps of a request -/

section

variable {W : World} {srv : Server}

/-- What remains to be done after a step. -/
theorem does_step {α : Type} {p p' : Prog α} {s w : W.State} (h : p.step W s = some (p', w)) {l : List Deed} {r : Res α} (hd : Does p' l r) :
    ∃ d, Does p (d :: l) r := by
  cases p with
  | done => cases h
  | git => cases h; exact ⟨_, .git _ hd⟩
  | glob => cases h; exact ⟨_, .glob _ hd⟩
  | read => cases h; exact ⟨_, .read _ hd⟩

/-- The work of a comparison. -/
def compareWork (a : CompareArgs) : Nat := 2 * 3 + 2 * (a.pathPattern.count ',' + 1) + 2 * 6000

/-- After `n` steps of request `q`. -/
def Spent (srv : Server) (q : Request) (n : Nat) : Pc W.State → Prop
  | .scan next i => ((∃ a, q = .compare a ∧ next = some a) ∨ (q = .list ∧ next = none)) ∧ i ≤ srv.shards ∧ n ≤ 2 * i
  | .scanBoth next i => ((∃ a, q = .compare a ∧ next = some a) ∨ (q = .list ∧ next = none)) ∧ i < srv.shards ∧ n ≤ 2 * i + 1
  | .lookup a => q = .compare a ∧ n ≤ 2 * srv.shards + 1
  | .looking a => q = .compare a ∧ n ≤ 2 * srv.shards + 2
  | .wantMutex a => q = .compare a ∧ n ≤ 2 * srv.shards + 3
  | .check a => q = .compare a ∧ n ≤ 2 * srv.shards + 4
  | .wantShard a => q = .compare a ∧ n ≤ 2 * srv.shards + 5
  | .running a _ _ p => q = .compare a ∧ ∀ l r, Does p l r → n + l.length ≤ 2 * srv.shards + 6 + compareWork a
  | .store a _ _ _ _ => q = .compare a ∧ n ≤ 2 * srv.shards + 7 + compareWork a
  | .branchWant r f => q = .branches r f ∧ n = 0
  | .branching _ p => (∃ r f, q = .branches r f) ∧ ∀ l r, Does p l r → n + l.length ≤ 3
  | .finished => n ≤ mostSteps srv q

theorem spent_step {q : Request} {n i : Nat} {pc pc' : Pc W.State} {s s' : Shared W.State} (ha : Act1 W srv i pc s pc' s') (h : Spent srv q n pc) :
    Spent srv q (n + 1) pc' := by
  cases ha with
  | scanTake hi hc => exact ⟨h.1, hi, by have := h.2.2; omega⟩
  | scanDrop => exact ⟨h.1, h.2.1, by have := h.2.2; omega⟩
  | scanEnd hi =>
    obtain ⟨h1, h2, h3⟩ := h
    rcases h1 with ⟨a, rfl, rfl⟩ | ⟨rfl, rfl⟩
    · exact ⟨rfl, by omega⟩
    · show _ ≤ 2 * srv.shards + 1
      omega
  | lookup hc => exact ⟨h.1, Nat.succ_le_succ h.2⟩
  | known hr => exact ⟨h.1, Nat.succ_le_succ h.2⟩
  | unknown hr =>
    obtain ⟨rfl, h⟩ := h
    show _ ≤ (2 * srv.shards + 1) + 7 + _
    omega
  | lock hm hpo => exact ⟨h.1, Nat.succ_le_succ h.2⟩
  | lockPoisoned hm hpo =>
    obtain ⟨rfl, h⟩ := h
    show _ ≤ (2 * srv.shards + 1) + 7 + _
    omega
  | hit hc hf =>
    obtain ⟨rfl, h⟩ := h
    show _ ≤ (2 * srv.shards + 1) + 7 + _
    omega
  | expired hc hf => exact ⟨h.1, Nat.succ_le_succ h.2⟩
  | miss hc => exact ⟨h.1, Nat.succ_le_succ h.2⟩
  | permit ho hc =>
    refine ⟨h.1, fun l r hd => ?_⟩
    obtain ⟨h1, -, h2, h3, -, h4⟩ := C109_work hd
    have := h.2
    unfold compareWork
    omega
  | work hs =>
    refine ⟨h.1, fun l r hd => ?_⟩
    obtain ⟨d, hd⟩ := does_step hs hd
    have := h.2 _ _ hd
    rw [List.length_cons] at this
    omega
  | ended hd =>
    have := h.2 _ _ .done
    exact ⟨h.1, by rw [List.length_nil] at this; omega⟩
  | storeOk =>
    obtain ⟨rfl, h⟩ := h
    show _ ≤ (2 * srv.shards + 1) + 7 + compareWork _
    omega
  | storeErr =>
    obtain ⟨rfl, h⟩ := h
    show _ ≤ (2 * srv.shards + 1) + 7 + compareWork _
    omega
  | storePanic =>
    obtain ⟨rfl, h⟩ := h
    show _ ≤ (2 * srv.shards + 1) + 7 + compareWork _
    omega
  | branchTake hc =>
    obtain ⟨rfl, rfl⟩ := h
    refine ⟨⟨_, _, rfl⟩, fun l r hd => ?_⟩
    have := does_branches hd
    omega
  | branchWork hs =>
    refine ⟨h.1, fun l r hd => ?_⟩
    obtain ⟨d, hd⟩ := does_step hs hd
    have := h.2 _ _ hd
    rw [List.length_cons] at this
    omega
  | branchOk =>
    obtain ⟨⟨r, f, rfl⟩, h⟩ := h
    exact Nat.succ_le_succ (h _ _ .done)
  | branchErr =>
    obtain ⟨⟨r, f, rfl⟩, h⟩ := h
    exact Nat.succ_le_succ (h _ _ .done)
  | branchPanic =>
    obtain ⟨⟨r, f, rfl⟩, h⟩ := h
    exact Nat.succ_le_succ (h _ _ .done)

/-- C109: however requests are interleaved, a request takes no more steps than this: it is done, or it waits. -/
theorem C109_steps {i n : Nat} {q : Request} {c c' : Config W.State} (h0 : c.threads[i]? = some (begin q)) (h : OwnSteps W srv i c n c') : n ≤ mostSteps srv q := by
  have key : ∃ pc, c'.threads[i]? = some pc ∧ Spent srv q n pc := by
    induction h with
    | here =>
      refine ⟨_, h0, ?_⟩
      cases q with
      | compare a => exact ⟨.inl ⟨a, rfl, rfl⟩, Nat.zero_le _, Nat.zero_le _⟩
      | branches r f => exact ⟨rfl, rfl⟩
      | list => exact ⟨.inr ⟨rfl, rfl⟩, Nat.zero_le _, Nat.zero_le _⟩
    | own h hs ih =>
      obtain ⟨pc, h1, h2⟩ := ih
      obtain ⟨pc0, pc', s', e, ha, rfl⟩ := hs
      rw [h1] at e
      cases e
      exact ⟨pc', by rw [List.getElem?_set_self (List.getElem?_eq_some_iff.1 h1).1], spent_step ha h2⟩
    | other h hs hn ih =>
      obtain ⟨pc, h1, h2⟩ := ih
      refine ⟨pc, ?_, h2⟩
      cases hs with
      | thread j hj =>
        have hij : j ≠ i := fun e => hn (e ▸ hj)
        obtain ⟨pc0, pc', s', e, ha, rfl⟩ := hj
        rw [List.getElem?_set_ne hij]
        exact h1
      | arrive r => rw [List.getElem?_append_left (List.getElem?_eq_some_iff.1 h1).1]; exact h1
      | tick d => exact h1
  obtain ⟨pc, -, h⟩ := key
  cases pc with
  | finished => exact h
  | scan next j =>
    obtain ⟨⟨a, rfl, rfl⟩ | ⟨rfl, rfl⟩, h1, h2⟩ := h
    · show _ ≤ (2 * srv.shards + 1) + 7 + _
      omega
    · show _ ≤ 2 * srv.shards + 1
      omega
  | scanBoth next j =>
    obtain ⟨⟨a, rfl, rfl⟩ | ⟨rfl, rfl⟩, h1, h2⟩ := h
    · show _ ≤ (2 * srv.shards + 1) + 7 + _
      omega
    · show _ ≤ 2 * srv.shards + 1
      omega
  | running a ho st p =>
    obtain ⟨rfl, h⟩ := h
    obtain ⟨l, hl⟩ := C109_runs W p st
    have := h _ _ hl
    show _ ≤ (2 * srv.shards + 1) + 7 + compareWork _
    omega
  | branching r p =>
    obtain ⟨⟨r, f, rfl⟩, h⟩ := h
    obtain ⟨l, hl⟩ := C109_runs W p (c.sh.repo r)
    have := h _ _ hl
    show _ ≤ 4
    omega
  | branchWant r f =>
    obtain ⟨rfl, rfl⟩ := h
    exact Nat.zero_le _
  | store a ho st fi r =>
    obtain ⟨rfl, h⟩ := h
    show _ ≤ (2 * srv.shards + 1) + 7 + compareWork _
    omega
  | _ =>
    obtain ⟨rfl, h⟩ := h
    show _ ≤ (2 * srv.shards + 1) + 7 + _
    omega

/-! ### What is kept -/

theorem last_snoc {σ : Type} {log : List (Entry σ)} {e : Entry σ} {a : CompareArgs} {t : Nat} {v : List ExtrinsicDiff} :
    LastResult (log ++ [e]) a t v ↔ (∃ id ho st fi, e = .computed id a ho st fi (.ok v) t) ∨
      (LastResult log a t v ∧ ∀ id ho st fi r t, e ≠ .computed id a ho st fi r t) := by
  constructor
  · rintro ⟨l1, l2, id, ho, st, fi, e1, e2⟩
    rcases List.eq_nil_or_concat l2 with rfl | ⟨l2, x, rfl⟩
    · obtain ⟨-, h⟩ := List.append_inj' e1 rfl
      cases h
      exact .inl ⟨id, ho, st, fi, rfl⟩
    · rw [List.concat_eq_append] at e1 e2
      rw [← List.cons_append, ← List.append_assoc] at e1
      obtain ⟨rfl, h⟩ := List.append_inj' e1 rfl
      cases h
      exact .inr ⟨⟨l1, l2, id, ho, st, fi, rfl, fun id ho st fi r t hm => e2 id ho st fi r t (List.mem_append_left _ hm)⟩,
        fun id ho st fi r t e => e2 id ho st fi r t (by rw [e]; simp)⟩
  · rintro (⟨id, ho, st, fi, rfl⟩ | ⟨⟨l1, l2, id, ho, st, fi, rfl, h⟩, hn⟩)
    · exact ⟨log, [], id, ho, st, fi, rfl, by simp⟩
    · refine ⟨l1, l2 ++ [e], id, ho, st, fi, by simp, fun id ho st fi r t hm => ?_⟩
      rcases List.mem_append.1 hm with hm | hm
      · exact h _ _ _ _ _ _ hm
      · rw [List.mem_singleton] at hm
        exact hn _ _ _ _ _ _ hm.symm

/-- No comparison is computed. -/
def Idle {σ : Type} (es : List (Entry σ)) : Prop := ∀ id a ho st fi r t, Entry.computed id a ho st fi r t ∉ es

theorem last_idle {σ : Type} {log es : List (Entry σ)} (h : Idle es) {a : CompareArgs} {t : Nat} {v : List ExtrinsicDiff} :
    LastResult (log ++ es) a t v ↔ LastResult log a t v := by
  induction es generalizing log with
  | nil => rw [List.append_nil]
  | cons e es ih =>
    rw [show log ++ e :: es = (log ++ [e]) ++ es by simp, ih (fun id a ho st fi r t hm => h id a ho st fi r t (List.mem_cons_of_mem _ hm)), last_snoc]
    constructor
    · rintro (⟨id, ho, st, fi, rfl⟩ | h)
      · exact absurd (List.mem_cons_self) (h _ _ _ _ _ _ _)
      · exact h.1
    · exact fun hl => .inr ⟨hl, fun id ho st fi r t e => h id a ho st fi r t (by rw [e]; simp)⟩

theorem last_computed {σ : Type} {log es : List (Entry σ)} (h : Idle es) {id : Nat} {b : CompareArgs} {ho : HashOrder} {st fi : σ} {r : Res (List ExtrinsicDiff)}
    {u : Nat} {a : CompareArgs} {t : Nat} {v : List ExtrinsicDiff} :
    LastResult (log ++ (.computed id b ho st fi r u :: es)) a t v ↔ (b = a ∧ r = .ok v ∧ u = t) ∨ (b ≠ a ∧ LastResult log a t v) := by
  rw [show log ++ (.computed id b ho st fi r u :: es) = (log ++ [.computed id b ho st fi r u]) ++ es by simp, last_idle h, last_snoc]
  constructor
  · rintro (⟨_, _, _, _, e⟩ | ⟨h1, h2⟩)
    · cases e; exact .inl ⟨rfl, rfl, rfl⟩
    · exact .inr ⟨fun e => h2 _ _ _ _ _ _ (by rw [e]), h1⟩
  · rintro (⟨rfl, rfl, rfl⟩ | ⟨h1, h2⟩)
    · exact .inl ⟨_, _, _, _, rfl⟩
    · exact .inr ⟨h2, fun _ _ _ _ _ _ e => h1 (by cases e; rfl)⟩

/-- What a step does to the cache and the history. -/
inductive Effect (pc pc' : Pc W.State) (s s' : Shared W.State) : Prop
  | quiet (es : List (Entry W.State)) (hc : s'.cache = s.cache) (hl : s'.log = s.log ++ es) (he : Idle es) (h1 : ∀ a, Recomputing a pc → Recomputing a pc')
      (h2 : ∀ a, Recomputing a pc' → Recomputing a pc ∨ ∀ t v, (a, t, v) ∉ s.cache)
  | dropped (a : CompareArgs) (hc : s'.cache = cacheRemove s.cache a) (hl : s'.log = s.log) (hp : pc = .check a) (hp' : pc' = .wantShard a)
  | done (a : CompareArgs) (id : Nat) (ho : HashOrder) (st fi : W.State) (r : Res (List ExtrinsicDiff)) (es : List (Entry W.State))
      (hp : pc = .store a ho st fi r) (hp' : pc' = .finished) (he : Idle es) (hl : s'.log = s.log ++ (.computed id a ho st fi r s.clock :: es))
      (hc : (∃ v, r = .ok v ∧ s'.cache = (a, s.clock, v) :: cacheRemove s.cache a) ∨ ((∀ v, r ≠ .ok v) ∧ s'.cache = s.cache))

theorem effect {i : Nat} {pc pc' : Pc W.State} {s s' : Shared W.State} (ha : Act1 W srv i pc s pc' s') : Effect pc pc' s s' := by
  have same : ∀ {pc pc' : Pc W.State} {s s' : Shared W.State}, s'.cache = s.cache → s'.log = s.log → (∀ a, Recomputing a pc → Recomputing a pc') →
      (∀ a, Recomputing a pc' → Recomputing a pc ∨ ∀ t v, (a, t, v) ∉ s.cache) → Effect pc pc' s s' :=
    fun h1 h2 h3 h4 => .quiet [] h1 (by rw [h2, List.append_nil]) (by intro _ _ _ _ _ _ _ h; cases h) h3 h4
  have idle1 : ∀ {e : Entry W.State}, (∀ id a ho st fi r t, e ≠ .computed id a ho st fi r t) → Idle [e] := fun h id a ho st fi r t hm =>
    h id a ho st fi r t (List.mem_singleton.1 hm).symm
  cases ha with
  | scanTake hi hc => exact same rfl rfl (fun _ h => h.elim) (fun _ h => h.elim)
  | scanDrop =>
    refine same ?_ ?_ (fun _ h => h.elim) (fun _ h => h.elim)
    · split <;> rfl
    · split <;> rfl
  | @scanEnd next j _ hi =>
    refine same ?_ ?_ (fun _ h => h.elim) (fun _ h => ?_)
    · split <;> rfl
    · split <;> rfl
    · cases next <;> exact h.elim
  | lookup hc => exact same rfl rfl (fun _ h => h.elim) (fun _ h => h.elim)
  | known hr => exact same rfl rfl (fun _ h => h.elim) (fun _ h => h.elim)
  | unknown hr => exact .quiet [_] rfl rfl (idle1 (by intros; intro h; cases h)) (fun _ h => h.elim) (fun _ h => h.elim)
  | lock hm hpo => exact same rfl rfl (fun _ h => h.elim) (fun _ h => h.elim)
  | lockPoisoned hm hpo => exact .quiet [_] rfl rfl (idle1 (by intros; intro h; cases h)) (fun _ h => h.elim) (fun _ h => h.elim)
  | hit hc hf => exact .quiet [_] rfl rfl (idle1 (by intros; intro h; cases h)) (fun _ h => h.elim) (fun _ h => h.elim)
  | expired hc hf => exact .dropped _ rfl rfl rfl rfl
  | miss hc =>
    refine same rfl rfl (fun _ h => h.elim) (fun a h => .inr fun t v hm => ?_)
    cases h
    unfold cacheGet at hc
    rw [Option.map_eq_none_iff, List.find?_eq_none] at hc
    exact hc _ hm (by simp)
  | permit ho hc => exact same rfl rfl (fun _ h => h) (fun _ h => .inl h)
  | work hs => exact same rfl rfl (fun _ h => h) (fun _ h => .inl h)
  | ended hd => exact same rfl rfl (fun _ h => h) (fun _ h => .inl h)
  | storeOk => exact .done _ _ _ _ _ _ [_] rfl rfl (idle1 (by intros; intro h; cases h)) rfl (.inl ⟨_, rfl, rfl⟩)
  | storeErr => exact .done _ _ _ _ _ _ [_] rfl rfl (idle1 (by intros; intro h; cases h)) rfl (.inr ⟨(by intros; intro h; cases h), rfl⟩)
  | storePanic => exact .done _ _ _ _ _ _ [_] rfl rfl (idle1 (by intros; intro h; cases h)) rfl (.inr ⟨(by intros; intro h; cases h), rfl⟩)
  | branchTake hc => exact same rfl rfl (fun _ h => h.elim) (fun _ h => h.elim)
  | branchWork hs => exact same rfl rfl (fun _ h => h.elim) (fun _ h => h.elim)
  | branchOk => exact .quiet [_] rfl rfl (idle1 (by intros; intro h; cases h)) (fun _ h => h.elim) (fun _ h => h.elim)
  | branchErr => exact .quiet [_] rfl rfl (idle1 (by intros; intro h; cases h)) (fun _ h => h.elim) (fun _ h => h.elim)
  | branchPanic => exact .quiet [_] rfl rfl (idle1 (by intros; intro h; cases h)) (fun _ h => h.elim) (fun _ h => h.elim)

theorem recomputing_mutex {σ : Type} {a : CompareArgs} {pc : Pc σ} (h : Recomputing a pc) : mutexBy pc = 1 := by
  cases pc <;> first | rfl | exact h.elim

theorem recomputing_unique {σ : Type} {a c : CompareArgs} {pc : Pc σ} (h : Recomputing a pc) (h' : Recomputing c pc) : a = c := by
  cases pc <;> first | exact h.symm.trans h' | exact h.elim

/-- What is known of the cache. -/
structure KeptOk (c : Config W.State) : Prop where
  once : (c.sh.cache.map (·.1)).Nodup
  last : ∀ a t v, (a, t, v) ∈ c.sh.cache → LastResult c.sh.log a t v
  all : ∀ a t v, LastResult c.sh.log a t v → (a, t, v) ∈ c.sh.cache ∨ ∃ (i : Nat) (pc : Pc W.State), c.threads[i]? = some pc ∧ Recomputing a pc
  gone : ∀ (i : Nat) pc a, c.threads[i]? = some pc → Recomputing a pc → ∀ t v, (a, t, v) ∉ c.sh.cache

theorem mem_remove {cache : List (CompareArgs × Nat × List ExtrinsicDiff)} {a b : CompareArgs} {t : Nat} {v : List ExtrinsicDiff} :
    (b, t, v) ∈ cacheRemove cache a ↔ (b, t, v) ∈ cache ∧ b ≠ a := by
  unfold cacheRemove
  rw [List.mem_filter]
  simp

theorem get_set {α : Type} {l : List α} {i j : Nat} {x y z : α} (hi : l[i]? = some x) (h : (l.set i y)[j]? = some z) : (j = i ∧ z = y) ∨ (j ≠ i ∧ l[j]? = some z) := by
  by_cases e : i = j
  · subst e
    rw [List.getElem?_set_self (List.getElem?_eq_some_iff.1 hi).1] at h
    cases h
    exact .inl ⟨rfl, rfl⟩
  · rw [List.getElem?_set_ne e] at h
    exact .inr ⟨Ne.symm e, h⟩

theorem keptOk_reachable {c : Config W.State} (h : Reachable W srv c) : KeptOk c := by
  induction h with
  | init repo clock =>
    refine ⟨.nil, fun _ _ _ h => (by cases h), fun _ _ _ hl => ?_, fun _ _ _ h => (by cases h)⟩
    obtain ⟨l1, l2, _, _, _, _, h, _⟩ := hl
    have : ([] : List (Entry W.State)) = l1 ++ _ :: l2 := h
    simp at this
  | @step c c' hR hs ih =>
    cases hs with
    | tick n => exact ⟨ih.once, ih.last, ih.all, ih.gone⟩
    | arrive r =>
      have hb : ∀ a, ¬ Recomputing a (begin r : Pc W.State) := by intro a h; cases r <;> exact h
      refine ⟨ih.once, ih.last, fun a t v hl => ?_, fun i pc a hi hr => ?_⟩
      · rcases ih.all a t v hl with h | ⟨i, pc, hi, hr⟩
        · exact .inl h
        · exact .inr ⟨i, pc, by rw [List.getElem?_append_left (List.getElem?_eq_some_iff.1 hi).1]; exact hi, hr⟩
      · rcases Nat.lt_trichotomy i c.threads.length with hlt | rfl | hgt
        · rw [List.getElem?_append_left hlt] at hi
          exact ih.gone i pc a hi hr
        · rw [List.getElem?_append_right (Nat.le_refl _), Nat.sub_self] at hi
          cases hi
          exact absurd hr (hb a)
        · rw [List.getElem?_eq_none (by simp; omega)] at hi
          cases hi
    | thread i hi =>
      obtain ⟨pc, pc', s', hi, ha, rfl⟩ := hi
      have hset : ∀ {j : Nat} {q : Pc W.State}, j ≠ i → c.threads[j]? = some q → (c.threads.set i pc')[j]? = some q := fun hj h => by
        rw [List.getElem?_set_ne (Ne.symm hj)]; exact h
      have hself : (c.threads.set i pc')[i]? = some pc' := List.getElem?_set_self (List.getElem?_eq_some_iff.1 hi).1
      have hlocks := locksOk_reachable hR
      cases effect ha with
      | quiet es hc hl he h1 h2 =>
        refine ⟨by dsimp only; rw [hc]; exact ih.once, fun a t v hm => ?_, fun a t v hm => ?_, fun j q a hj hr t v hm => ?_⟩
        · dsimp only at hm ⊢
          rw [hl, last_idle he]
          exact ih.last a t v (hc ▸ hm)
        · dsimp only at hm ⊢
          rw [hl, last_idle he] at hm
          rcases ih.all a t v hm with h | ⟨j, q, hj, hr⟩
          · exact .inl (hc ▸ h)
          · by_cases e : j = i
            · subst e
              rw [hi] at hj
              cases hj
              exact .inr ⟨_, _, hself, h1 a hr⟩
            · exact .inr ⟨j, q, hset e hj, hr⟩
        · dsimp only at hm
          rw [hc] at hm
          rcases get_set hi hj with ⟨rfl, rfl⟩ | ⟨-, hj⟩
          · rcases h2 a hr with h | h
            · exact ih.gone _ _ a hi h t v hm
            · exact h t v hm
          · exact ih.gone j q a hj hr t v hm
      | dropped a hc hl hp hp' =>
        subst hp hp'
        refine ⟨?_, fun b t v hm => ?_, fun b t v hm => ?_, fun j q b hj hr t v hm => ?_⟩
        · dsimp only
          rw [hc]
          exact ih.once.sublist (List.Sublist.map _ List.filter_sublist)
        · dsimp only at hm ⊢
          rw [hc, mem_remove] at hm
          rw [hl]
          exact ih.last b t v hm.1
        · dsimp only at hm ⊢
          rw [hl] at hm
          by_cases e : b = a
          · subst e
            exact .inr ⟨i, _, hself, rfl⟩
          · rcases ih.all b t v hm with h | ⟨j, q, hj, hr⟩
            · rw [hc, mem_remove]
              exact .inl ⟨h, e⟩
            · have hji : j ≠ i := by
                rintro rfl
                rw [hi] at hj
                cases hj
                exact hr
              exact .inr ⟨j, q, hset hji hj, hr⟩
        · dsimp only at hm
          rw [hc, mem_remove] at hm
          rcases get_set hi hj with ⟨rfl, rfl⟩ | ⟨hji, hj⟩
          · exact hm.2 (Eq.symm hr)
          · exact ih.gone j q b hj hr t v hm.1
      | done a id ho st fi r es hp hp' he hl hc =>
        subst hp hp'
        have hnot : ∀ t v, (a, t, v) ∉ c.sh.cache := ih.gone i _ a hi rfl
        have hrm : cacheRemove c.sh.cache a = c.sh.cache := List.filter_eq_self.2 fun ⟨b, t, v⟩ hm => by
          simp only [ne_eq, decide_eq_true_eq]
          rintro rfl
          exact hnot t v hm
        have halone : ∀ {j : Nat} {q : Pc W.State} {b : CompareArgs}, j ≠ i → c.threads[j]? = some q → ¬ Recomputing b q := fun hji hj hr =>
          hji (mutex_unique hlocks hj hi (recomputing_mutex hr) rfl)
        have hmem : ∀ b t v, (b, t, v) ∈ s'.cache ↔ (a = b ∧ r = .ok v ∧ c.sh.clock = t) ∨ (a ≠ b ∧ (b, t, v) ∈ c.sh.cache) := by
          intro b t v
          rcases hc with ⟨w, rfl, hc⟩ | ⟨hr, hc⟩
          · rw [hc, hrm, List.mem_cons]
            constructor
            · rintro (e | hm)
              · cases e; exact .inl ⟨rfl, rfl, rfl⟩
              · exact .inr ⟨by rintro rfl; exact hnot t v hm, hm⟩
            · rintro (⟨rfl, e, rfl⟩ | h)
              · cases e; exact .inl rfl
              · exact .inr h.2
          · rw [hc]
            constructor
            · exact fun hm => .inr ⟨by rintro rfl; exact hnot t v hm, hm⟩
            · rintro (⟨-, e, -⟩ | h)
              · exact absurd e (hr v)
              · exact h.2
        refine ⟨?_, fun b t v hm => ?_, fun b t v hm => ?_, fun j q b hj hr t v hm => ?_⟩
        · dsimp only
          rcases hc with ⟨w, rfl, hc⟩ | ⟨hr, hc⟩
          · rw [hc, hrm, List.map_cons, List.nodup_cons]
            refine ⟨fun h => ?_, ih.once⟩
            obtain ⟨⟨b, t, v⟩, hm, rfl⟩ := List.mem_map.1 h
            exact hnot t v hm
          · rw [hc]; exact ih.once
        · dsimp only at hm ⊢
          rw [hl, last_computed he]
          rcases (hmem b t v).1 hm with h | ⟨h1, h2⟩
          · exact .inl h
          · exact .inr ⟨h1, ih.last b t v h2⟩
        · dsimp only at hm ⊢
          rw [hl, last_computed he] at hm
          rw [hmem]
          rcases hm with h | ⟨h1, h2⟩
          · exact .inl (.inl h)
          · rcases ih.all b t v h2 with h | ⟨j, q, hj, hr⟩
            · exact .inl (.inr ⟨h1, h⟩)
            · by_cases e : j = i
              · subst e
                rw [hi] at hj
                cases hj
                exact absurd hr h1
              · exact absurd hr (halone e hj)
        · rcases get_set hi hj with ⟨rfl, rfl⟩ | ⟨hji, hj⟩
          · exact hr.elim
          · exact absurd hr (halone hji hj)

/-- C109: in every reachable state, the server keeps exactly one result for each comparison whose last computation was successful, however long ago that was;
only the result of the comparison that is just being computed anew has been dropped. -/
theorem C109_kept {c : Config W.State} (h : Reachable W srv c) : (c.sh.cache.map (·.1)).Nodup ∧ ∀ a t v, (a, t, v) ∈ c.sh.cache ↔
    LastResult c.sh.log a t v ∧ ∀ (i : Nat) (pc : Pc W.State), c.threads[i]? = some pc → ¬ Recomputing a pc := by
  have hk := keptOk_reachable h
  refine ⟨hk.once, fun a t v => ⟨fun hm => ⟨hk.last a t v hm, fun i pc hi hr => hk.gone i pc a hi hr t v hm⟩, fun ⟨hl, hn⟩ => ?_⟩⟩
  rcases hk.all a t v hl with h | ⟨i, pc, hi, hr⟩
  · exact h
  · exact absurd hr (hn i pc hi)

theorem kept_get {cache : List (CompareArgs × Nat × List ExtrinsicDiff)} {a : CompareArgs} : cacheGet cache a = none ↔ ∀ t v, (a, t, v) ∉ cache := by
  unfold cacheGet
  rw [Option.map_eq_none_iff, List.find?_eq_none]
  constructor
  · exact fun h t v hm => h _ hm (by simp)
  · rintro h ⟨b, t, v⟩ hm e
    simp only [decide_eq_true_eq] at e
    subst e
    exact h t v hm

/-- C109: nothing limits what is kept.  If comparisons are successful, then after requests for them one after the other the results of all of them are kept,
together with all that were kept before, and any time later they still are. -/
theorem C109_grows {c : Config W.State} (h : Reachable W srv c) (hq : AllDone c) (hp : c.sh.poisoned = false) (ho : HashOrder) (as : List CompareArgs)
    (hk : ∀ a ∈ as, srv.repos a.repo ≠ none) (hok : ∀ a ∈ as, ∀ s, ∃ v fi, (doCompare srv ho a).run W s = (.ok v, fi)) (d : Nat) :
    ∃ c', Later W srv c c' ∧ AllDone c' ∧ c'.sh.poisoned = false ∧ (∀ e ∈ c.sh.cache, e ∈ c'.sh.cache) ∧
      (∀ a ∈ as, ∃ t v, (a, t, v) ∈ c'.sh.cache) ∧ ∀ e ∈ c'.sh.cache, e.2.1 + d ≤ c'.sh.clock := by
  induction as generalizing c with
  | nil =>
    refine ⟨⟨c.threads, { c.sh with clock := c.sh.clock + d }⟩, .step .refl (.tick d), hq, hp, fun _ h => h, fun _ h => (by cases h), fun ⟨a, t, v⟩ hm => ?_⟩
    have hsh := (inv_reachable h).shared
    obtain ⟨_, _, _, _, hm⟩ := hsh.cache a t v hm
    exact Nat.add_le_add_right (hsh.times _ _ _ _ _ _ _ hm) d
  | cons a as ih =>
    have hk' := fun b hb => hk b (List.mem_cons_of_mem a hb)
    have hok' := fun b hb => hok b (List.mem_cons_of_mem a hb)
    cases hc : cacheGet c.sh.cache a with
    | some e =>
      obtain ⟨c', l1, l2, l3, l4, l5, l6⟩ := ih h hq hp hk' hok'
      refine ⟨c', l1, l2, l3, l4, fun b hb => ?_, l6⟩
      rcases List.mem_cons.1 hb with rfl | hb
      · exact ⟨_, _, l4 _ (cacheGet_mem (t := e.1) (v := e.2) hc)⟩
      · exact l5 b hb
    | none =>
      have hquiet : Quiet c.threads := fun pc hm => by
        obtain ⟨i, hi⟩ := List.mem_iff_getElem?.1 hm
        exact hq i pc hi
      obtain ⟨c1, r, fi, k1, k2, k3, -, k4, -, -, k6, k7⟩ := C54_computes h hquiet hp (hk a (by simp)) hc ho
      obtain ⟨v, fi', e⟩ := hok a (by simp) (c.sh.repo a.repo)
      rw [e] at k3
      cases k3
      have hl := later_trans (arrived c (.compare a)) k1
      have hR := reachable_later h hl
      have hq1 : AllDone c1 := fun i pc hi => by
        rw [k2] at hi
        rcases List.mem_append.1 (List.mem_of_getElem? hi) with hm | hm
        · exact hquiet pc hm
        · exact List.mem_singleton.1 hm
      have hp1 : c1.sh.poisoned = false := by
        cases e : c1.sh.poisoned with
        | false => rfl
        | true => exact absurd (k6.1 e) (by intro h; cases h)
      obtain ⟨c', l1, l2, l3, l4, l5, l6⟩ := ih hR hq1 hp1 hk' hok'
      have hkeep : ∀ e ∈ c.sh.cache, e ∈ c1.sh.cache := by
        rintro ⟨b, t, w⟩ hm
        refine ((C109_kept hR).2 b t w).2 ⟨?_, fun i pc hi hr => ?_⟩
        · rw [k4]
          refine (last_computed (es := [_]) ?_).2 (.inr ⟨?_, (((C109_kept h).2 b t w).1 hm).1⟩)
          · intro _ _ _ _ _ _ _ h
            cases List.mem_singleton.1 h
          · rintro rfl
            exact kept_get.1 hc t w hm
        · rw [hq1 i pc hi] at hr
          exact hr
      refine ⟨c', later_trans hl l1, l2, l3, fun e he => l4 e (hkeep e he), fun b hb => ?_, l6⟩
      rcases List.mem_cons.1 hb with rfl | hb
      · exact ⟨_, _, l4 _ (cacheGet_mem (k7 v rfl))⟩
      · exact l5 b hb

end

/-! ### Concrete cases -/

/-- Requests for the same comparison with different patterns. -/
def exManyArgs (k : Nat) : CompareArgs := { exAskArgs with pathPattern := List.replicate (k + 1) '*' }

theorem exMany_pattern (k : Nat) : trim (exManyArgs k).pathPattern = (exManyArgs k).pathPattern ∧ hasDotDot (exManyArgs k).pathPattern = false ∧
    splitChar ',' (exManyArgs k).pathPattern = [(exManyArgs k).pathPattern] := by
  have hd : ∀ n, (List.replicate n '*').dropWhile isSpace = List.replicate n '*' := by
    intro n
    cases n with
    | zero => rfl
    | succ n => rw [List.replicate_succ, List.dropWhile_cons_of_neg (by decide)]
  refine ⟨?_, ?_, ?_⟩
  · show trim (List.replicate (k + 1) '*') = List.replicate (k + 1) '*'
    unfold trim
    rw [hd, List.reverse_replicate, hd, List.reverse_replicate]
  · cases h : hasDotDot (exManyArgs k).pathPattern with
    | false => rfl
    | true =>
      have h : str% ".." <:+: List.replicate (k + 1) '*' := (hasDotDot_iff _).1 h
      have := List.eq_of_mem_replicate (h.subset (by decide : '.' ∈ str% ".."))
      exact absurd this (by decide)
  · show splitChar ',' (List.replicate (k + 1) '*') = [List.replicate (k + 1) '*']
    refine pieces_unique (splitChar_pieces _) ⟨by simp, fun p hp => ?_, rfl⟩
    rw [List.mem_singleton.1 hp]
    intro h
    exact absurd (List.eq_of_mem_replicate h) (by decide)

theorem run_congr {W : World} {α β : Type} {p p' : Prog α} {s s' : W.State} (h : p.run W s = p'.run W s') (f : α → Prog β) :
    (p >>= f).run W s = (p' >>= f).run W s' := by
  rw [Prog.run_bind, Prog.run_bind, h]

/-- Two comparisons that find the same files. -/
theorem commits_congr {W : World} {b : Build} {ho : HashOrder} {rx : RegexEngine} {env : Env} {repo : Path} {old new : Str} {params : CompareParams}
    {filter : FilterParams} {p p' : Str} {n : Nat} {s s' s1 s2 : W.State} (hp : hasDotDot p = false) (hp' : hasDotDot p' = false)
    (h1 : ((gitCheckoutP old params.shouldPull params.gitForce).mapErr (debugStr env.cc.plain)).run W s = (.ok (), s1))
    (h1' : ((gitCheckoutP old params.shouldPull params.gitForce).mapErr (debugStr env.cc.plain)).run W s' = (.ok (), s1))
    (h2 : ∀ s, ((gitCheckoutP new params.shouldPull params.gitForce).mapErr (debugStr env.cc.plain)).run W s = (.ok (), s2))
    (hl : ∀ s, (listFilesP repo p n).run W s = (listFilesP repo p' n).run W s) :
    (compareCommitsP b ho rx env repo old new params filter p n).run W s = (compareCommitsP b ho rx env repo old new params filter p' n).run W s' := by
  unfold compareCommitsP
  rw [if_neg (by rw [hp]; decide), if_neg (by rw [hp']; decide), Prog.run_bind, Prog.run_bind, h1, h1']
  dsimp only
  rw [Prog.run_bind, Prog.run_bind, hl]
  generalize (listFilesP repo p' n).run W s1 = x
  obtain ⟨r, s⟩ := x
  cases r with
  | ok files =>
    dsimp only
    rw [Prog.run_bind, Prog.run_bind]
    generalize (parseListedP env repo params.ignoreErrors files).run W s = x
    obtain ⟨r, s⟩ := x
    cases r with
    | ok olds =>
      dsimp only
      rw [Prog.run_bind, Prog.run_bind, h2]
      dsimp only
      rw [Prog.run_bind, Prog.run_bind, hl]
    | _ => rfl
  | _ => rfl

theorem exMany_run (k : Nat) (σ : exSiteWorld.State) : (doCompare exSite.srv idOrder (exManyArgs k)).run exSiteWorld σ =
    (doCompare exSite.srv idOrder exAskArgs).run exSiteWorld (str% "start") := by
  obtain ⟨h1, h2, h3⟩ := exMany_pattern k
  have hl : ∀ (s : exSiteWorld.State), (listFilesP [.normal (str% "r"), .normal (str% "repo")] (exManyArgs k).pathPattern 6000).run exSiteWorld s =
      (listFilesP [.normal (str% "r"), .normal (str% "repo")] (str% "*") 6000).run exSiteWorld s := by
    intro s
    unfold listFilesP
    rw [h3]
    rfl
  have key := commits_congr (W := exSiteWorld) (b := exSite.srv.build) (ho := idOrder) (rx := exSite.srv.rx) (env := exSite.srv.env) (old := str% "v1")
    (new := str% "v2") (params := webParams exAskArgs) (filter := webFilter exAskArgs) (s := σ) (s' := (str% "start" : Str)) (s1 := (str% "v1" : Str))
    (s2 := (str% "v2" : Str)) h2 (by decide) rfl rfl (fun _ => rfl) hl
  rw [← h1] at key
  have e1 : doCompare exSite.srv idOrder (exManyArgs k) = (compareCommitsP exSite.srv.build idOrder exSite.srv.rx exSite.srv.env
      [.normal (str% "r"), .normal (str% "repo")] (str% "v1") (str% "v2") (webParams exAskArgs) (webFilter exAskArgs) (trim (exManyArgs k).pathPattern) 6000 >>=
      fun diff => pure (sortChanges (filterChanges diff (webFilter exAskArgs)))) := rfl
  have e2 : doCompare exSite.srv idOrder exAskArgs = (compareCommitsP exSite.srv.build idOrder exSite.srv.rx exSite.srv.env
      [.normal (str% "r"), .normal (str% "repo")] (str% "v1") (str% "v2") (webParams exAskArgs) (webFilter exAskArgs) (str% "*") 6000 >>=
      fun diff => pure (sortChanges (filterChanges diff (webFilter exAskArgs)))) := rfl
  rw [e1, e2]
  exact run_congr key _

/-- C109: the number of results that the server keeps has no limit, and it keeps them however old they are: a server in a repository with two revisions can get to
where nothing is going on, no result has been computed within any given time, and any number of results are kept. -/
theorem C109_false_limit (n d : Nat) : ∃ c, Reachable exSiteWorld exSite.srv c ∧ AllDone c ∧ n ≤ c.sh.cache.length ∧ ∀ e ∈ c.sh.cache, e.2.1 + d ≤ c.sh.clock := by
  have h0 : Reachable exSiteWorld exSite.srv (initial exSiteWorld (fun _ => str% "start") 0) := .init _ _
  have hok : isOk ((doCompare exSite.srv idOrder exAskArgs).run exSiteWorld (str% "start")).1 = true := by decide +kernel
  obtain ⟨c, h1, h2, -, -, h3, h4⟩ := C109_grows h0 (by intro i pc h; cases h) rfl idOrder ((List.range n).map exManyArgs)
    (by
      intro a ha
      obtain ⟨k, -, rfl⟩ := List.mem_map.1 ha
      show exSite.srv.repos (str% "repo") ≠ none
      exact fun h => nomatch h)
    (by
      intro a ha s
      obtain ⟨k, -, rfl⟩ := List.mem_map.1 ha
      rw [exMany_run k s]
      generalize (doCompare exSite.srv idOrder exAskArgs).run exSiteWorld (str% "start") = x at hok
      obtain ⟨r, s⟩ := x
      cases r with
      | ok v => exact ⟨v, s, rfl⟩
      | err => cases hok
      | panic => cases hok
      | diverge => cases hok) d
  refine ⟨c, reachable_later h0 h1, h2, ?_, h4⟩
  have hn : ((List.range n).map exManyArgs).Nodup := List.nodup_range.map fun i j h => by
    have := congrArg (fun a => a.pathPattern.length) h
    simpa [exManyArgs] using this
  have hsub : (List.range n).map exManyArgs ⊆ c.sh.cache.map (·.1) := fun a ha => by
    obtain ⟨t, v, hm⟩ := h3 a ha
    exact List.mem_map.2 ⟨_, hm, rfl⟩
  have := (hn.subperm hsub).length_le
  simpa using this

/-- The work for one revision: the reset to the branch of the remote has failed; the last of three files has not been read. -/
example : RevisionWork [.normal (str% "r")] (str% "v1") false true (str% "a*,b") 6000
    [.git [str% "reset", str% "--hard", str% "origin/v1"], .git [str% "reset", str% "--hard", str% "v1"], .glob (str% "r/a*"), .glob (str% "r/b"),
      .read [.normal (str% "r"), .normal (str% "a1")], .read [.normal (str% "r"), .normal (str% "a2")]] :=
  ⟨_, [.glob (str% "r/a*"), .glob (str% "r/b")], [[.normal (str% "r"), .normal (str% "a1")], [.normal (str% "r"), .normal (str% "a2")]], [str% "a*", str% "b"], rfl,
    List.prefix_rfl, splitChar_pieces (str% "a*,b"), List.prefix_rfl, by decide, by decide⟩

/-- One step of a request for a comparison, after some time has passed and another request has come. -/
example : ∃ (c c' : Config exSiteWorld.State), c.threads[0]? = some (begin (.compare exAskArgs)) ∧ OwnSteps exSiteWorld exSite.srv 0 c 1 c' := by
  refine ⟨⟨[begin (.compare exAskArgs)], (initial exSiteWorld (fun _ => str% "start") 0).sh⟩, _, rfl,
    .own (.other (.other .here (.tick 5) ?_) (.arrive .list) ?_) ⟨_, _, _, rfl, .scanTake (Nat.lt_of_le_of_lt (Nat.zero_le _) (exSite.srv.shardOf_lt []))
      ⟨rfl, fun _ => rfl⟩, rfl⟩⟩
  · rintro ⟨pc, pc', s', h1, h2, h3⟩
    cases h1
    have : [begin (.compare exAskArgs)] = [pc'] := congrArg Config.threads h3
    cases this
    cases h2
  · rintro ⟨pc, pc', s', h1, h2, h3⟩
    have := congrArg (fun c => c.threads.length) h3
    simp at this

/-- A comparison in the repository of the example, which does not fetch. -/
example : ∃ l, Does (doCompare exSite.srv idOrder exAskArgs) l ((doCompare exSite.srv idOrder exAskArgs).run exSiteWorld (str% "start")).1 ∧ gits l ≤ 4 ∧ walks l ≤ 2 := by
  obtain ⟨l, h⟩ := C109_runs exSiteWorld (doCompare exSite.srv idOrder exAskArgs) (str% "start")
  obtain ⟨-, h1, h2, -⟩ := C109_work h
  exact ⟨l, h, h1 rfl, h2⟩

end Swc
