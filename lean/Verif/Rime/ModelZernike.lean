/-
Model of africanus/rime/zernike.py. Floating point numbers are real numbers; `(n-m)/2` and `(n+m)/2.0 - k` are whole
numbers wherever they are used (n - m is even), so integer division models them.
-/
import Verif.Basic
import Mathlib.Analysis.SpecialFunctions.Trigonometric.Basic

set_option autoImplicit false

namespace Verif.Rime

/-- `fac` (zernike.py:8-17). -/
def fac (x : Int) : Except PyErr Nat :=
  if x < 0 then .error .valueError
  else if x = 0 then .ok 1
  else .ok (forRange x.toNat 1 fun i f => f * (i + 1))

/-- `pre_fac` (zernike.py:21-24). -/
noncomputable def preFac (k : Nat) (n m : Int) : Except PyErr ℝ := do
  let a ← fac (n - k)
  let b ← fac k
  let c ← fac ((n + m) / 2 - k)
  let d ← fac ((n - m) / 2 - k)
  pure ((-1) ^ k * a / (b * c * d))

/-- `zernike_rad` (zernike.py:28-34); the exponent `n - 2k` is a natural number in the loop. -/
noncomputable def zernikeRad (m n : Int) (rho : ℝ) : Except PyErr ℝ :=
  if n < 0 ∨ m < 0 ∨ |m| > n then .error .valueError
  else forRangeM ((n - m) / 2 + 1).toNat (0 : ℝ) fun k acc =>
    match preFac k n m with
    | .error e => .error e
    | .ok p => .ok (acc + p * rho ^ (n - 2 * k).toNat)

/-- The `while` loop of `zernike` (zernike.py:44-46), from the current `j1` and `n`. -/
def nollLoop (j1 n : Nat) : Nat × Nat :=
  if j1 > n then nollLoop (j1 - (n + 1)) (n + 1) else (j1, n)
termination_by j1

/-- The degree and order of the `j`-th mode (zernike.py:41-47). -/
def noll (j : Nat) : Nat × Int :=
  let j' := j + 1
  let r := nollLoop (j' - 1) 0
  let j1 := r.1
  let n := r.2
  (n, (-1) ^ j' * (((n % 2) + 2 * ((j1 + ((n + 1) % 2)) / 2) : Nat) : Int))

/-- `zernike` (zernike.py:36-51). -/
noncomputable def zernike (j : Nat) (rho phi : ℝ) : Except PyErr ℝ :=
  if rho > 1 then .ok 0
  else
    let n := (noll j).1
    let m := (noll j).2
    if m > 0 then
      match zernikeRad m n rho with
      | .error e => .error e
      | .ok r => .ok (r * Real.cos (m * phi))
    else if m < 0 then
      match zernikeRad (-m) n rho with
      | .error e => .error e
      | .ok r => .ok (r * Real.sin (-m * phi))
    else zernikeRad 0 n rho

/-- `_convert_coords` (zernike.py:54-57); `arctan2` is a parameter. -/
noncomputable def convertCoords (arctan2 : ℝ → ℝ → ℝ) (l m : ℝ) : ℝ × ℝ :=
  (Real.sqrt (l ^ 2 + m ^ 2), arctan2 l m)

/-- One output cell of `nb_zernike_dde` (zernike.py:68-81). -/
noncomputable def zernikeDde (arctan2 : ℝ → ℝ → ℝ) (l m : ℝ) (npoly : Nat) (coeffs : Nat → ℂ)
    (nollIndex : Nat → Nat) : Except PyErr ℂ :=
  let c := convertCoords arctan2 l m
  forRangeM npoly (0 : ℂ) fun p acc =>
    match zernike (nollIndex p) c.1 c.2 with
    | .error e => .error e
    | .ok z => .ok (acc + coeffs p * (z : ℂ))

end Verif.Rime
