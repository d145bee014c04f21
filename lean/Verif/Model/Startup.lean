/-
Model of `web/src/git.rs`, of the start of the web server (`web/src/main.rs:95-142`) and of the version check (`web/src/main.rs:342-363`).
-/
import Verif.Model.Git
import Verif.Model.ParsePallet

namespace Swc

/-- The regex `^https://github.com/([^/]+)/` of `web/src/git.rs:18`: the capture, if it matches.  The dot matches every character but a line
feed; the group takes all characters up to the next slash and has to be followed by one. -/
def orgOf (s : Str) : Option Str :=
  match stripLit (str% "https://github") s with
  | some (c :: rest) =>
    if c = '\n' then none
    else match stripLit (str% "com/") rest with
      | some rest =>
        let org := rest.takeWhile (· ≠ '/')
        if org = [] then none
        else match rest.dropWhile (· ≠ '/') with
          | [] => none
          | _ :: _ => some org
      | none => none
  | _ => none

/-- `web/src/git.rs:9-25` `get_origin_org`, given the outcome of `git remote get-url origin` in the directory.  (The error of the regex engine
cannot occur for this pattern.) -/
def getOriginOrg : GitOut → Res Str
  | .spawnFailed e => .err (str% "Failed to get origin url: " ++ e)
  | .exited false _ stderr _ => .err (str% "Failed to get origin url: " ++ stderr)
  | .exited true stdout _ _ => match orgOf stdout with
    | some org => .ok org
    | none => .err (str% "Failed to parse origin url")

/-- `web/src/main.rs:80-85` `struct Repo`. -/
structure Repo where
  name : Str
  path : Path
  organization : Str
  deriving DecidableEq

/-- What the start depends on. -/
structure StartEnv where
  /-- `root_path.join(name)`. -/
  join : Str → Path
  /-- `git remote get-url origin` in a directory. -/
  origin : Path → GitOut
  exists_ : Path → Bool
  staticIsDir : Bool
  /-- `{:?}` of the directory of static files. -/
  staticText : Str

/-- `web/src/main.rs:110-135`: add the repositories one after the other.  The map is a list of its entries, later ones first. -/
def addRepos (env : StartEnv) : List Str → List (Str × Repo) → Res (List (Str × Repo))
  | [], m => .ok m
  | name :: names, m => do
    let path := env.join name
    let org ← match getOriginOrg (env.origin path) with
      | .err e => Res.err (str% "Failed to get origin of " ++ name ++ str% ": " ++ e)
      | r => r
    let m := (name, ⟨name, path, org⟩) :: m
    if env.exists_ path then addRepos env names m
    else .err (str% "Repo directory '" ++ path.display ++ str% "' does not exist")

/-- `web/src/main.rs:95-142`: the map of repositories the server starts with. -/
def startup (env : StartEnv) (repos : List Str) : Res (List (Str × Repo)) :=
  if repos = [] then .err (str% "Need at least one value to --repos")
  else do
    let m ← addRepos env repos []
    if env.staticIsDir then .ok m else .err (str% "Web root path '" ++ env.staticText ++ str% "' is not a directory")

/-- An answer of the server. -/
structure Response where
  status : Nat
  contentType : Str
  body : Str
  deriving DecidableEq

/-- The content type of `http_200`, `http_500` and of `version`. -/
def textHtml : Str := str% "text/html; charset=utf-8"

/-- `web/src/main.rs:342-363` `version`; `is` is the decoded query parameter. -/
def version (current : Str) (is : Option Str) : Response :=
  match is with
  | some v =>
    if current = v ∨ current.map (fun c => if c = '+' then ' ' else c) = v then ⟨200, textHtml, str% "Version check passed"⟩
    else ⟨500, textHtml, str% "Version check failed: '" ++ current ++ str% "' vs '" ++ v ++ str% "'"⟩
  | none => ⟨200, textHtml, current⟩

/-- Value of a hexadecimal digit. -/
def hexVal (c : Char) : Option Nat :=
  if '0' ≤ c ∧ c ≤ '9' then some (c.toNat - 48)
  else if 'a' ≤ c ∧ c ≤ 'f' then some (c.toNat - 87)
  else if 'A' ≤ c ∧ c ≤ 'F' then some (c.toNat - 55)
  else none

/-- Decoding of one value of a query string (`form_urlencoded`, used by `web::Query`): `+` is a space, `%XX` a byte.  Only ASCII bytes are
modelled; a value with others is left alone. -/
def formDecode : Str → Str
  | '%' :: a :: b :: s => match hexVal a, hexVal b with
    | some x, some y => if 16 * x + y < 128 then Char.ofNat (16 * x + y) :: formDecode s else '%' :: formDecode (a :: b :: s)
    | _, _ => '%' :: formDecode (a :: b :: s)
  | c :: s => (if c = '+' then ' ' else c) :: formDecode s
  | [] => []

end Swc
