/-
How both programs end: `main` of `cli/src/main.rs:178-230` and of `web/src/main.rs:95-180`, with what the standard library does with the result of
`main` (`std::process::Termination`): on success the status is 0; on an error `Error: ` and the error in the notation `{:?}` are printed, and the status
is 1; after a panic it is 101.
-/
import Verif.Model.Site

namespace Swc

/-- The status of the process; none if it does not end. -/
def Res.status {α : Type} : Res α → Option Nat
  | .ok _ => some 0
  | .err _ => some 1
  | .panic => some 101
  | .diverge => none

/-- `cli/src/main.rs:178`: what is printed for an error that is a text (`Box<dyn Error>` made of a `String` prints like the text).  The errors of the
tool are texts except for those about filters, which are errors of the regex crate and print otherwise. -/
def lastWords (plain : Char → Bool) (why : Str) : Str := str% "Error: " ++ debugStr plain why

/-! ### The web server -/

/-- What the start of the server depends on besides `Machine`. -/
structure Net where
  /-- `SslAcceptor::mozilla_intermediate`, `set_private_key_file` and `set_certificate_chain_file` succeed with this key and this certificate. -/
  tls : Str → Str → Bool
  /-- `HttpServer::bind` and `bind_openssl` (`true`): the error, in the notation `{:?}`, if there is one. -/
  bind : Bool → Str → Option Str

/-- `std::io::Error::new(ErrorKind::Other, text)` as `main` prints it. -/
def otherError (plain : Char → Bool) (e : Str) : Str := str% "Error: Custom { kind: Other, error: " ++ debugStr plain e ++ str% " }"

/-- `web/src/main.rs:165-172`: TLS.  `cmd.key.expect("Checked by clap")` and the three `unwrap`s panic. -/
def secure (net : Net) (c : ServerCmd) : Res Unit :=
  match c.cert with
  | none => .ok ()
  | some cert => match c.key with
    | none => .panic
    | some key => if net.tls key cert then .ok () else .panic

/-- `web/src/main.rs:95-180` `main` until the server serves: its options and repositories, or what it prints; `none` if `clap` ends the program. -/
def serverMain (m : Machine) (net : Net) (args : List Str) : Option (Res (ServerCmd × List (Str × Repo))) :=
  (serverStart m args).map fun r => do
    let (c, repos) ← r.mapErr (otherError m.plain)
    secure net c
    match net.bind c.cert.isSome (c.endpoint ++ str% ":" ++ natToStr c.port) with
    | none => .ok (c, repos)
    | some e => .err (str% "Error: " ++ e)

end Swc
