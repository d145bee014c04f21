/-
What a request for branches asks for, and where an answer can come from.
-/
import Verif.Spec.Query
import Verif.Spec.Branches
import Verif.Spec.Json
import Verif.Model.BranchJson
import Verif.Model.Web

namespace Swc.Spec

open Swc

/-- What the pairs of a query to `/branches` ask for: one repository, and to fetch exactly if there is one `fetch` and it is `true`. -/
structure AsksBranches (ps : List (Str × Str)) (repo : Str) (fetch : Bool) : Prop where
  repo : Once ps (str% "repo") repo
  fetch : Once ps (str% "fetch") (if fetch then str% "true" else str% "false") ∨ Never ps (str% "fetch") ∧ fetch = false

/-- While the server ran, `git ls-remote` was executed successfully in the repository and printed `stdout`. -/
def Printed (W : World) (srv : Server) (repo stdout : Str) : Prop :=
  ∃ c, Reachable W srv c ∧ ∃ stderr utf8 s', W.git (c.sh.repo repo) [str% "ls-remote", str% "--tags", str% "--heads"] = (.exited true stdout stderr utf8, s')

/-- Git prints well-formed listings only. -/
def GitLists (W : World) : Prop :=
  ∀ s s' stdout stderr utf8, W.git s [str% "ls-remote", str% "--tags", str% "--heads"] = (.exited true stdout stderr utf8, s') →
    ∃ rs : List Ref, stdout = output rs ∧ ∀ r ∈ rs, r.WellFormed ∧ r.Plain

end Swc.Spec
