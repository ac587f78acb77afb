/-
Model of africanus/gps/utils.py and africanus/gps/kernels.py, in exact real arithmetic.
-/
import Verif.Basic
import Mathlib.Analysis.SpecialFunctions.Exp
import Mathlib.Analysis.SpecialFunctions.Trigonometric.Basic
import Mathlib.Analysis.SpecialFunctions.Sqrt

set_option autoImplicit false

namespace Verif.Gps

/-- A numpy array: shape and elements in row-major order (gps/kernels.py:8-47). -/
structure Nd where
  dims : List Nat
  data : Nat → ℝ

/-- Body of `abs_diff` after the shapes are known (gps/utils.py:36-43): `x` has `D'` columns, `xp` has `D`. Tiling repeats
row `a` of `x` along the second axis and row `b` of `xp` along the first; the norm runs over the columns. -/
noncomputable def diffCore (N D' Np D : Nat) (x xp : Nat → ℝ) : Except PyErr (Nat → Nat → ℝ) :=
  if D' < D then .error .indexError
  else .ok fun a b => Real.sqrt (((List.range D).map fun i => (x (a * D' + i) - xp (b * D + i)) ^ 2).sum)

/-- `abs_diff` (gps/utils.py:7-43): arrays that are not both two dimensional are flattened. Returns the extents of the
result and its elements. -/
noncomputable def absDiff (x xp : Nd) : Except PyErr (Nat × Nat × (Nat → Nat → ℝ)) :=
  match x.dims, xp.dims with
  | [N, D'], [Np, D] => (diffCore N D' Np D x.data xp.data).map fun m => (N, Np, m)
  | xd, pd => (diffCore xd.prod 1 pd.prod 1 x.data xp.data).map fun m => (xd.prod, pd.prod, m)

/-- Result of `exponential_squared`: a matrix, or a vector for `pspec` (gps/kernels.py:8-47). -/
inductive Cov
  | matrix (n np : Nat) (m : Nat → Nat → ℝ)
  | vector (n : Nat) (v : Nat → ℝ)

/-- `fftshift(fftfreq(N, d))[k]` (gps/kernels.py:43). -/
noncomputable def shiftedFreq (N : Nat) (d : ℝ) (k : Nat) : ℝ := ((k : ℝ) - ((N / 2 : Nat) : ℝ)) / (N * d)

/-- The branch `pspec=True` (gps/kernels.py:33-44) for `xp` of the same shape as `x`. `raise(Exception, message)` raises a
tuple, which is a `TypeError`. Unpacking a shape of other length is a `ValueError`; after `squeeze` arrays with fewer than
two elements have no `x[1]`. -/
noncomputable def pspec (x xp : Nd) (sigmaf l : ℝ) : Except PyErr Cov :=
  match x.dims with
  | [N, D] =>
    if D ≠ 1 then .error .typeError
    else
      open Classical in
      if ∃ i < N, x.data i ≠ xp.data i then .error .typeError
      else if N < 2 then .error .indexError
      else
        let delx := x.data 1 - x.data 0
        if ∃ i < N - 1, x.data (i + 1) - x.data i ≠ delx then .error .typeError
        else .ok (.vector N fun k =>
          Real.sqrt (2 * Real.pi * l) * sigmaf ^ 2 * Real.exp (-l ^ 2 * shiftedFreq N delx k ^ 2 / 2))
  | _ => .error .valueError

/-- `exponential_squared` (gps/kernels.py:8-47). -/
noncomputable def exponentialSquared (x xp : Nd) (sigmaf l : ℝ) (ps : Bool) : Except PyErr Cov :=
  if ps then pspec x xp sigmaf l
  else match absDiff x xp with
    | .error e => .error e
    | .ok (n, np, m) => .ok (.matrix n np fun a b => sigmaf ^ 2 * Real.exp (-(m a b) ^ 2 / (2 * l ^ 2)))

end Verif.Gps
