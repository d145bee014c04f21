/-
Independent specification of the comparisons that bring the web server down.
-/
import Verif.Spec.Failure
import Verif.Spec.Site

namespace Swc.Spec

open Swc

/-- The comparison that is asked for crashes the parser, in this state of the repository. -/
def CrashesParser (W : World) (srv : Server) (a : CompareArgs) (s s' : W.State) : Prop :=
  ∃ path, srv.repos a.repo = some path ∧
    ParserCrashes W srv.env path (trim a.old) (trim a.new)
      { method := a.method, unit := a.unit, ignoreErrors := a.ignoreErrors, gitPull := a.gitPull ≠ some false, offline := false, gitForce := true }
      (trim a.pathPattern) 6000 s s'

end Swc.Spec
