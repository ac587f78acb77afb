/-
Model of the restoration of images: `fit_2d_gaussian` and `restore` (deconv/hogbom/clean.py:36-68 and 197-235).

Images are functions of two indices with explicit extents; the arithmetic is that of the real numbers, without rounding
and without nan. Logging is not modelled. Parameters stand for `scipy.optimize.curve_fit`; `scipy.signal.fftconvolve` is
replaced by the sum that it computes by Fourier transforms.
-/
import Verif.Deconv.Hogbom
import Verif.Deconv.Gaussian
import Mathlib.Algebra.BigOperators.Group.Finset.Basic

set_option autoImplicit false

namespace Verif.Deconv

/-- The parameters of `twod_gaussian` after the coordinates (deconv/hogbom/clean.py:21). -/
structure GaussParams where
  amplitude : ℝ
  xo : ℝ
  yo : ℝ
  sigmaX : ℝ
  sigmaY : ℝ
  theta : ℝ
  offset : ℝ

/-- `twod_gaussian((x, y), *popt)` at one position (deconv/hogbom/clean.py:20-33). -/
noncomputable def GaussParams.eval (g : GaussParams) (x y : ℝ) : ℝ :=
  twodGaussian x y g.amplitude g.xo g.yo g.sigmaX g.sigmaY g.theta g.offset

/-- `curve_fit` without weights: the number of samples, their positions, their values and the starting point give the
fitted parameters or an exception (no convergence: `RuntimeError`) (deconv/hogbom/clean.py:36-67). -/
abbrev CurveFit := Nat → (Nat → ℝ × ℝ) → (Nat → ℝ) → GaussParams → Except PyErr GaussParams

/-- `opt.curve_fit` (deconv/hogbom/clean.py:63): `leastsq` raises `TypeError` when there are fewer samples than the seven
parameters. -/
noncomputable def curveFit (fit : CurveFit) (n : Nat) (xy : Nat → ℝ × ℝ) (data : Nat → ℝ) (p0 : GaussParams) :
    Except PyErr GaussParams :=
  if n < 7 then .error .typeError else fit n xy data p0

/-- `psf_fit` (deconv/hogbom/clean.py:48-52). -/
noncomputable def psfFit (lk mk : Nat) (psf : Nat → Nat → ℝ) : Nat → Nat → ℝ :=
  fun a b => if psf a b ≥ 1 / 2 * imgMax lk mk psf then psf a b else 0

/-- Sample `k` of the flattened `(x, y)` (deconv/hogbom/clean.py:54-56): `np.meshgrid` of vectors of `lk` and `mk` elements
gives matrices of `mk` rows and `lk` columns. -/
noncomputable def gridPoint (lk : Nat) (k : Nat) : ℝ × ℝ := (((k % lk : Nat) : ℝ), ((k / lk : Nat) : ℝ))

/-- Element `k` of `data.ravel()` for an image of `mk` columns (deconv/hogbom/clean.py:60). -/
def ravel (mk : Nat) (a : Nat → Nat → ℝ) (k : Nat) : ℝ := a (k / mk) (k % mk)

/-- `initial_guess` (deconv/hogbom/clean.py:58). -/
noncomputable def initialGuess (lk mk : Nat) : GaussParams := ⟨1 / 2, lk / 2, mk / 2, 7 / 4, 7 / 5, -4, 0⟩

/-- `fit_2d_gaussian` (deconv/hogbom/clean.py:36-68) for a psf of shape `(lk, mk)`. The largest element of an image without
pixels raises `ValueError`. Simplified: the quotient by a largest element of zero (infinite or nan) is zero. -/
noncomputable def fit2dGaussian (fit : CurveFit) (lk mk : Nat) (psf : Nat → Nat → ℝ) : Except PyErr (Nat → Nat → ℝ) :=
  if lk = 0 ∨ mk = 0 then .error .valueError
  else
    match curveFit fit (mk * lk) (gridPoint lk) (ravel mk (psfFit lk mk psf)) (initialGuess lk mk) with
    | .error e => .error e
    | .ok popt =>
      let dataFitted : Nat → ℝ := fun k => popt.eval (gridPoint lk k).1 (gridPoint lk k).2
      let top := imgMax 1 (mk * lk) fun _ k => dataFitted k
      .ok fun a b => dataFitted (a * mk + b) / top

/-- `scipy.signal.fftconvolve(a, b, mode='same')` (deconv/hogbom/clean.py:225) for `a` of shape `(n1, n2)` and `b` of shape
`(m1, m2)`: the elements from `(m1 - 1) // 2` and `(m2 - 1) // 2` on of the convolution, as many as `a` has. -/
noncomputable def fftconvolveSame (n1 n2 m1 m2 : Nat) (a b : Nat → Nat → ℝ) : Nat → Nat → ℝ := fun i j =>
  ∑ p ∈ Finset.range n1, ∑ q ∈ Finset.range n2,
    let r := i + (m1 - 1) / 2
    let s := j + (m2 - 1) / 2
    if p ≤ r ∧ r - p < m1 ∧ q ≤ s ∧ s - q < m2 then a p q * b (r - p) (s - q) else 0

/-- `restore` (deconv/hogbom/clean.py:197-232) for `clean` and `residuals` of shape `(nx, ny)` and a psf of shape
`(px, py)`: the restored image and the convolved model. Simplified: `residuals` has the shape of `clean` (other shapes are
broadcast or rejected by numpy), and neither has extent zero. -/
noncomputable def restore (fit : CurveFit) (nx ny px py : Nat) (clean psf residuals : Nat → Nat → ℝ) :
    Except PyErr ((Nat → Nat → ℝ) × (Nat → Nat → ℝ)) :=
  match fit2dGaussian fit px py psf with
  | .error e => .error e
  | .ok cleanBeam =>
    let iconvModel := fftconvolveSame nx ny px py clean cleanBeam
    .ok (fun i j => iconvModel i j + residuals i j, iconvModel)

end Verif.Deconv
