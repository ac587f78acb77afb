/-
Model of africanus/rime/zernike.py with the 64-bit integers numba uses for the factorials (ModelZernike.lean has exact
integers). Floating point numbers are still real numbers.
-/
import Verif.Rime.ModelZernike

set_option autoImplicit false

namespace Verif.Rime

/-- An `int64` result: the number modulo `2^64`, between `-2^63` and `2^63 - 1` (for the integers of rime/zernike.py:9-51). -/
def wrap64 (z : Int) : Int := (z + 2 ^ 63) % 2 ^ 64 - 2 ^ 63

/-- `fac` (zernike.py:8-17): `factorial` starts as the literal `1` and is multiplied by an `int64` (also if `x` is a float, whose
`range` has integers), so it is an `int64`. -/
def fac64 (x : Int) : Except PyErr Int :=
  if x < 0 then .error .valueError
  else if x = 0 then .ok 1
  else .ok (forRange x.toNat 1 fun i f => wrap64 (f * (i + 1)))

/-- `pre_fac` (zernike.py:21-24): the numerator is a float, the denominator a product of `int64`; division by zero raises
(numba's default error model). -/
noncomputable def preFac64 (k : Nat) (n m : Int) : Except PyErr ℝ := do
  let a ← fac64 (n - k)
  let b ← fac64 k
  let c ← fac64 ((n + m) / 2 - k)
  let d ← fac64 ((n - m) / 2 - k)
  let denominator := wrap64 (wrap64 (b * c) * d)
  if denominator = 0 then .error .zeroDivisionError else pure ((-1) ^ k * a / denominator)

/-- `zernike_rad` (zernike.py:28-34). -/
noncomputable def zernikeRad64 (m n : Int) (rho : ℝ) : Except PyErr ℝ :=
  if n < 0 ∨ m < 0 ∨ |m| > n then .error .valueError
  else forRangeM ((n - m) / 2 + 1).toNat (0 : ℝ) fun k acc =>
    match preFac64 k n m with
    | .error e => .error e
    | .ok p => .ok (acc + p * rho ^ (n - 2 * k).toNat)

/-- `zernike` (zernike.py:36-51). -/
noncomputable def zernike64 (j : Nat) (rho phi : ℝ) : Except PyErr ℝ :=
  if rho > 1 then .ok 0
  else
    let n := (noll j).1
    let m := (noll j).2
    if m > 0 then
      match zernikeRad64 m n rho with
      | .error e => .error e
      | .ok r => .ok (r * Real.cos (m * phi))
    else if m < 0 then
      match zernikeRad64 (-m) n rho with
      | .error e => .error e
      | .ok r => .ok (r * Real.sin (-m * phi))
    else zernikeRad64 0 n rho

end Verif.Rime
