/-
Model of the version of the library: `core/src/lib.rs:34-41`, the check of it in the integration tests (`core/src/testing.rs:12-20`) and the tag of a release (`Makefile:6-7, 17`).
-/
import Verif.Model.Git

namespace Swc

/-- `core/src/lib.rs:36` `VERSION`: `format!("{}+{}", env!("CARGO_PKG_VERSION"), git_version!(args = ["--always"], fallback = "unknown"))`, where `described` is what
`git describe --always` printed during the build, without the line break, if it succeeded. -/
def libraryVersion (package : Str) (described : Option Str) : Str := package ++ '+' :: described.getD (str% "unknown")

/-- `core/src/lib.rs:38-40` `VERSION_DIRTY`. -/
def versionDirty (version : Str) : Bool := decide (str% "dirty" <:+: version)

/-- `Makefile:7`: `v$(VERSION)`. -/
def releaseTag (package : Str) : Str := 'v' :: package

/-- `core/src/testing.rs:12-20` `assert_version`; `semver` is `Version::parse(…).is_ok()`. -/
def assertVersion (semver : Str → Bool) (current raw name : Str) : Res Unit :=
  match splitChar ' ' raw with
  | [n, v] => if n = name ∧ semver v = true ∧ v = current then .ok () else .panic
  | _ => .panic

end Swc
