/-
Model of `web/src/html.rs` and of the rows of the result page (`web/templates/compare.stpl`).
-/
import Verif.Model.Web

namespace Swc

/-- `v as i128` for a `u128`: two's complement. -/
def asI128 (v : Nat) : ℤ := if v < 2 ^ 127 then v else (v : ℤ) - 2 ^ 128

/-- `a - b` for `i128`: a debug build panics on overflow, a release build wraps. -/
def subI128 (b : Build) (x y : ℤ) : Res ℤ :=
  let d := x - y
  if F64.i128Min ≤ d ∧ d ≤ F64.i128Max then .ok d
  else match b with
    | .debug => .panic
    | .release => .ok (if d < 0 then d + 2 ^ 128 else d - 2 ^ 128)

/-- `web/src/html.rs:100-116` `html_color_percent`.  (`{:.2?}` of a float prints like `{:.2}`; `{:.0?}` is only reached for zero and NaN.) -/
def htmlColorPercent (p : F64) (change : RelativeChange) : Str :=
  match change with
  | .changed =>
    if F64.lt p (.fin 0) then str% "<p style='color:green'>-" ++ F64.fmt2 (F64.abs p) ++ str% "%</p>"
    else if F64.lt (.fin 0) p then str% "<p style='color:red'>+" ++ F64.fmt2 (F64.abs p) ++ str% "%</p>"
    else match p with
      | .nan => str% "NaN"
      | _ => str% "0"
  | .unchanged => str% "<p style='color:gray'>Unchanged</p>"
  | .added => str% "<p style='color:orange'>Added</p>"
  | .removed => str% "<p style='color:orange'>Removed</p>"

/-- `change.new_v.unwrap() as i128 - change.old_v.unwrap() as i128` (`web/src/html.rs:121,156`). -/
def absDiff (b : Build) (change : TermChange) : Res ℤ := do
  let n ← Res.unwrap change.newV
  let o ← Res.unwrap change.oldV
  subI128 b (asI128 n) (asI128 o)

/-- `web/src/html.rs:118-135` `html_color_abs`. -/
def htmlColorAbs (b : Build) (change : TermChange) (unit : Dimension) : Res Str :=
  match change.change with
  | .changed => do
    let d ← absDiff b change
    .ok (if d < 0 then str% "<p style='color:green'>-" ++ unit.fmtValue d.natAbs ++ str% "</p>"
      else if 0 < d then str% "<p style='color:red'>+" ++ unit.fmtValue d.natAbs ++ str% "</p>"
      else str% "0")
  | .unchanged => .ok (str% "<p style='color:gray'>Unchanged</p>")
  | .added => .ok (str% "<p style='color:orange'>Added</p>")
  | .removed => .ok (str% "<p style='color:orange'>Removed</p>")

/-- `u32::MAX as i128`. -/
def u32Max : ℤ := 2 ^ 32 - 1

/-- `web/src/html.rs:140-152` `order_percent`. -/
def orderPercent (change : TermChange) : ℤ :=
  match change.change with
  | .changed => min (F64.toI128 (F64.mul change.percent (F64.rnd 1000))) u32Max
  | .unchanged => 0
  | .added => F64.i128Max
  | .removed => F64.i128Min

/-- `web/src/html.rs:154-161` `order_abs`. -/
def orderAbs (b : Build) (change : TermChange) : Res ℤ :=
  match change.change with
  | .changed => absDiff b change
  | .unchanged => .ok 0
  | .added => .ok F64.i128Max
  | .removed => .ok F64.i128Min

/-- `web/src/html.rs:96-98` `code_link`. -/
def codeLink (repo org name file rev : Str) : Str :=
  str% "<a href=\"https://github.com/" ++ org ++ str% "/" ++ repo ++ str% "/tree/" ++ rev ++ str% "/" ++ file ++ str% "#:~:text=fn " ++ name
    ++ str% "\" target=\"_blank\"><sup><small>CODE</small></sup></a>"

end Swc
