/-
Model of the `Cache-Control` header of the answers of the server, `web/src/main.rs:355-359` (`/version` without `is`) and `:377-381` (`/version/badge`); no other
handler sets it.  What `fs::Files` sends for files below `/static` is left open.
-/
import Verif.Model.Site

namespace Swc

/-- `actix_web::http::header::CacheDirective`, those that are used. -/
inductive CacheDirective where
  | noCache
  | shared
  | maxAge (seconds : Nat)
  deriving DecidableEq

/-- `Display for CacheDirective`. -/
def CacheDirective.text : CacheDirective → Str
  | .noCache => str% "no-cache"
  | .shared => str% "public"
  | .maxAge n => str% "max-age=" ++ natToStr n

/-- `Display for CacheControl`: the directives with commas. -/
def cacheControl (ds : List CacheDirective) : Str := (str% ", ").intercalate (ds.map CacheDirective.text)

/-- `web/src/main.rs:355-359` and `:377-381`. -/
def versionDirectives : List CacheDirective := [.noCache, .shared, .maxAge 600]

/-- An answer with its `Cache-Control` header. -/
structure Reply where
  resp : Response
  cacheControl : Option Str
  deriving DecidableEq

/-- The header of the answer to a request (for files below `/static` that of `static`). -/
def Site.cacheHeader (s : Site) (static : Option Str) (r : HttpRequest) : Option Str :=
  match route r with
  | some (.files _) => static
  | some .badge => some (Swc.cacheControl versionDirectives)
  | some .version => match parseVersionQuery s.u r.query with
    | some none => some (Swc.cacheControl versionDirectives)
    | _ => none
  | _ => none

end Swc
