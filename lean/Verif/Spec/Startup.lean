/-
Independent specification of origin URLs and of query values.
-/
import Verif.Model.Basic

namespace Swc.Spec

open Swc

/-- `url` is an https URL on the host `host` whose path starts with the segment `org` and a slash. -/
def HttpsUrl (host org url : Str) : Prop :=
  ∃ rest, url = str% "https://" ++ host ++ str% "/" ++ org ++ str% "/" ++ rest ∧ org ≠ [] ∧ '/' ∉ org

/-- Two hexadecimal digits, upper case, of a number below 256. -/
def hex2 (n : Nat) : Str := [Nat.digitChar (n / 16), Nat.digitChar (n % 16)]

/-- Characters that may stand in a query value as they are. -/
def unreserved (c : Char) : Bool := c.isAlphanum || c = '-' || c = '.' || c = '_'

/-- How a correct client writes an ASCII string as a query value: unreserved characters as they are, others as `%XX`. -/
def formEncode (s : Str) : Str := s.flatMap fun c => if unreserved c then [c] else '%' :: hex2 c.toNat

end Swc.Spec
