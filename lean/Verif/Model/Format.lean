/-
Model of the number formatters of `core/src/lib.rs` (`Dimension::fmt_value`, `fmt_scalar`, `fmt_time`, `fmt_proof`) and the
`u128` instance of the formatting traits.
-/
import Verif.Model.Term
import Verif.Model.F64

namespace Swc

/-- `format!("{:.2}", w as f64 / unit as f64)`. -/
def fmtQuot (w unit : Nat) : Str := F64.fmt2 (F64.div (F64.ofNat w) (F64.ofNat unit))

namespace Dimension

/-- `core/src/lib.rs:846-858` `Dimension::fmt_scalar`. -/
def fmtScalar (w : Nat) : Str :=
  if w ≥ 1000000000000 then fmtQuot w 1000000000000 ++ str% "T"
  else if w ≥ 1000000000 then fmtQuot w 1000000000 ++ str% "G"
  else if w ≥ 1000000 then fmtQuot w 1000000 ++ str% "M"
  else if w ≥ 1000 then fmtQuot w 1000 ++ str% "K"
  else natToStr w

/-- `core/src/lib.rs:861-873` `Dimension::fmt_time`.  (`{:.2}` of an integer prints the integer.) -/
def fmtTime (t : Nat) : Str :=
  if t ≥ 1000000000000 then fmtQuot t 1000000000000 ++ str% "s"
  else if t ≥ 1000000000 then fmtQuot t 1000000000 ++ str% "ms"
  else if t ≥ 1000000 then fmtQuot t 1000000 ++ str% "us"
  else if t ≥ 1000 then fmtQuot t 1000 ++ str% "ns"
  else natToStr t ++ str% "ps"

/-- `core/src/lib.rs:875-889` `Dimension::fmt_proof`. -/
def fmtProof (b : Nat) : Str :=
  if b ≥ 1073741824 then fmtQuot b 1073741824 ++ str% "GiB"
  else if b ≥ 1048576 then fmtQuot b 1048576 ++ str% "MiB"
  else if b ≥ 1024 then fmtQuot b 1024 ++ str% "KiB"
  else natToStr b ++ str% "B"

/-- `core/src/lib.rs:839-844` `Dimension::fmt_value`. -/
def fmtValue (d : Dimension) (v : Nat) : Str :=
  match d with
  | .time => fmtTime v
  | .proof => fmtProof v

end Dimension

/-- `core/src/traits.rs:11-27`: `u128` as a weight value. -/
instance : WeightValue Nat := ⟨0, 1, Dimension.fmtScalar⟩

end Swc
