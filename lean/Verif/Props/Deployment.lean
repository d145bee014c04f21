/-
C116: the command lines of the documentation and of the deployment, and what visitors of such a server can do.
-/
import Verif.Spec.Deployment
import Verif.Props.Site
import Verif.Props.MergeRequests

namespace Swc

open Spec

/-! ### What the lines say -/

/-- C116: the four documented lines start the server that they describe: where the repositories are, which ones are served, on which address, and
whether encrypted. -/
theorem C116_lines :
    readServerLine readmeServer = some ⟨[.parent], [.normal (str% "web"), .normal (str% "static")],
      [str% "polkadot", str% "substrate", str% "cumulus"], str% "127.0.0.1", 8080, none, none⟩ ∧
    readServerLine composeMaster = some ⟨[.root, .normal (str% "repos")], [.normal (str% "web"), .normal (str% "static")],
      [str% "substrate", str% "polkadot", str% "cumulus", str% "chain"], str% "0.0.0.0", 8080, some (str% "/certs/cert.pem"), some (str% "/certs/key.pem")⟩ ∧
    readServerLine composeDev = some ⟨[.root, .normal (str% "repos")], [.normal (str% "web"), .normal (str% "static")],
      [str% "acala", str% "substrate", str% "polkadot", str% "cumulus", str% "chain"], str% "0.0.0.0", 8080, some (str% "/certs/cert.pem"),
      some (str% "/certs/key.pem")⟩ ∧
    readServerLine imageLine = some ⟨[.normal (str% "root")], [.normal (str% "web"), .normal (str% "static")], [str% "polkadot"], str% "127.0.0.1", 8080,
      none, none⟩ := by
  refine ⟨rfl, rfl, rfl, rfl⟩

/-! ### What visitors can do -/

theorem lookup_known (r : Str) : (pathPresets.lookup r).isSome ↔ r = knownRepository := by
  unfold pathPresets knownRepository
  rw [List.lookup]
  by_cases h : r = str% "polkadot-sdk"
  · subst h; simp
  · rw [show (r == str% "polkadot-sdk") = false from beq_eq_false_iff_ne.2 h]
    simp [h]

/-- C116: on the start page of any server, at any time, the button "Compare" compares something exactly if the selected repository is
`polkadot-sdk`; otherwise it only shows a message. -/
theorem C116_button (p : StartPage) : p.compare ≠ none ↔ p.repo = some knownRepository := by
  unfold StartPage.compare rootQuery
  rw [ne_eq, Option.map_eq_none_iff, ← ne_eq, ← Option.isSome_iff_ne_none, lookup_known]
  cases hr : p.repo with
  | none => exact ⟨fun e => absurd e (by decide), (fun e => nomatch e)⟩
  | some r => exact ⟨fun e => congrArg some e, Option.some.inj⟩

/-- C116: the same for the list of merge requests: a double click on one that can be opened opens a comparison exactly for `polkadot-sdk`, and ends with
an exception for every other repository. -/
theorem C116_double_click {owner repo : Str} {mr : MergeRequest} {r : MrRow} (hr : ShowsRequest owner mr r) (ho : Own owner mr) :
    r.doubleClick repo = .throws ↔ repo ≠ knownRepository := by
  refine ⟨fun h e => ?_, fun h => C85_throws hr ho ?_⟩
  · subst e
    unfold MrRow.doubleClick at h
    rw [(hr.opens mr).2 ⟨ho, rfl⟩] at h
    obtain ⟨pattern, hp⟩ := Option.isSome_iff_exists.1 ((lookup_known knownRepository).2 rfl)
    revert h
    unfold mergeRequestQuery defaultParams
    rw [hp]
    exact fun h => nomatch h
  · rw [← Option.not_isSome_iff_eq_none, lookup_known]
    exact h

/-- The repositories of a site that was started with a line are those of the line. -/
theorem started_names {s : Site} {m : Machine} {args : List Str} {c c' : ServerCmd} (h : s.Started m args c) (hc : readServerLine args = some c') (n : Str) :
    n ∈ s.names ↔ n ∈ c'.repos := by
  have e : c = c' := by
    obtain ⟨repos, hs, _⟩ := h
    exact Option.some.inj (((C86_server args c).2 ((C89_starts m args c).1 ⟨repos, hs⟩).1).symm.trans hc)
  subst e
  exact (C89_serves h n).1

/-- C116 (finding): a server that is started as documented, be it by the README, by one of the two services of the deployment, or by the image without
arguments, is of no use on its own start page: none of the repositories that it offers can be compared with the button, whatever the visitor does. -/
theorem C116_useless {args : List Str} (ha : args ∈ documentedLines) {s : Site} {m : Machine} {c : ServerCmd} (hS : s.Started m args c)
    {store : Str → Option Str} {tr : List PageEvent} {p : StartPage} (h : Visit s.names store tr p) : p.compare = none := by
  by_contra hn
  have hk := ((C83_selected h).2.2 _ ((C116_button p).1 hn)).2.1
  have h4 := C116_lines
  simp only [documentedLines, List.mem_cons, List.not_mem_nil, or_false] at ha
  rcases ha with rfl | rfl | rfl | rfl
  · exact absurd ((started_names hS h4.1 _).1 hk) (by decide)
  · exact absurd ((started_names hS h4.2.1 _).1 hk) (by decide)
  · exact absurd ((started_names hS h4.2.2.1 _).1 hk) (by decide)
  · exact absurd ((started_names hS h4.2.2.2 _).1 hk) (by decide)

/-- C116 (finding): nor can any merge request of a served repository be opened. -/
theorem C116_no_request {args : List Str} (ha : args ∈ documentedLines) {s : Site} {m : Machine} {c : ServerCmd} (hS : s.Started m args c)
    {owner repo : Str} (hn : repo ∈ s.names) {mr : MergeRequest} {r : MrRow} (hr : ShowsRequest owner mr r) :
    r.doubleClick repo = .throws ∨ r.doubleClick repo = .nothing := by
  by_cases ho : Own owner mr
  · refine .inl ((C116_double_click hr ho).2 ?_)
    rintro rfl
    have h4 := C116_lines
    simp only [documentedLines, List.mem_cons, List.not_mem_nil, or_false] at ha
    rcases ha with rfl | rfl | rfl | rfl
    · exact absurd ((started_names hS h4.1 _).1 hn) (by decide)
    · exact absurd ((started_names hS h4.2.1 _).1 hn) (by decide)
    · exact absurd ((started_names hS h4.2.2.1 _).1 hn) (by decide)
    · exact absurd ((started_names hS h4.2.2.2 _).1 hn) (by decide)
  · right
    unfold MrRow.doubleClick
    cases hop : r.opens with
    | none => rfl
    | some x => exact absurd ((hr.opens x).1 hop).1 ho

/-- C116: any command line is mended by adding the repository `polkadot-sdk`: if it is served, a visitor who selects it can compare whatever is selected
as revisions. -/
theorem C116_useful {served : List Str} (hk : knownRepository ∈ served) {store : Str → Option Str} {tr : List PageEvent} {p : StartPage}
    (h : Visit served store tr p) : ∃ p', Visit served store (tr ++ [.repo knownRepository]) p' ∧ p'.compare ≠ none := by
  have hs : ∃ p', p.step served (.repo knownRepository) = some p' := ⟨_, if_pos hk⟩
  obtain ⟨p', hs⟩ := hs
  have hv : Visit served store (tr ++ [.repo knownRepository]) p' := .step h hs
  refine ⟨p', hv, (C116_button p').2 ?_⟩
  have e := hs
  change (if knownRepository ∈ served then some (StartPage.load { p with repo := some knownRepository, shownRepo := knownRepository, store := setItem p.store keyRepo knownRepository } knownRepository false) else none) = some p' at e
  rw [if_pos hk] at e
  rw [← Option.some.inj e]
  unfold StartPage.load
  split
  · rfl
  · rw [if_neg (by decide)]
    unfold StartPage.populate StartPage.setFirst StartPage.setSecond
    dsimp only
    split_ifs <;> rfl

/-! ### Concrete cases -/

-- All documented lines start a server on a machine on which everything is there.
example : documentedLines.map (fun args => (serverStart exMachine args).map fun r => r.map fun p => p.2.map Prod.fst) =
    [some (.ok [str% "cumulus", str% "substrate", str% "polkadot"]), some (.ok [str% "chain", str% "cumulus", str% "polkadot", str% "substrate"]),
      some (.ok [str% "chain", str% "cumulus", str% "polkadot", str% "substrate", str% "acala"]), some (.ok [str% "polkadot"])] := by decide +kernel

/-- A visit: the visitor selects a repository and gets a list of branches.  Only for `polkadot-sdk` the visitor can compare. -/
def exVisit (repo : Str) : Option StartPage := do
  let p ← (StartPage.loaded fun _ => none).step [repo] (.repo repo)
  p.step [repo] (.answer 0 repo [(str% "master", str% "abc"), (str% "dev", str% "def")])

example : (exVisit (str% "polkadot")).map (fun p => (p.first, p.compare.isSome)) = some (some (str% "master"), false) := by decide +kernel
example : (exVisit (str% "polkadot-sdk")).map (fun p => (p.first, p.compare.isSome)) = some (some (str% "master"), true) := by decide +kernel

end Swc
