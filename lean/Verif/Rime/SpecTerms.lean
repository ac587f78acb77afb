/-
Specifications of the terms of the RIME, from the documentation.
-/
import Mathlib.Analysis.SpecialFunctions.Trigonometric.Basic
import Mathlib.Analysis.SpecialFunctions.Sqrt
import Mathlib.Analysis.SpecialFunctions.Log.Basic

set_option autoImplicit false

namespace Verif.Rime

/-- The phase delay of a source seen by a baseline (phase.py:58-63): `e^(s 2 pi i (u l + v m + w (n-1)) nu / c)` with
`n = sqrt(1 - l^2 - m^2)`, `c = 299792458`, and sign `s = -1` (fourier) or `1` (casa). -/
noncomputable def delay (s l m u v w nu : ℝ) : ℂ :=
  Complex.exp (Complex.I *
    ((s * (2 * Real.pi * (u * l + v * m + w * (Real.sqrt (1 - l ^ 2 - m ^ 2) - 1)) * nu / 299792458) : ℝ) : ℂ))

/-- Squared full width at half maximum to squared standard deviation: `8 ln 2`. The visibility of a Gaussian
source of major and minor FWHM `emaj`, `emin` and position angle `angle` relative to a point source: the Fourier
transform of a unit-flux elliptical Gaussian, `exp(-2 pi^2 (sigma_maj^2 a^2 + sigma_min^2 b^2))`, with `(a, b)` the
baseline in wavelengths along the major and minor axes. -/
noncomputable def gaussianFactor (emaj emin angle u v nu : ℝ) : ℝ :=
  let a := (u * Real.sin angle + v * Real.cos angle) * nu / 299792458
  let b := (u * Real.cos angle - v * Real.sin angle) * nu / 299792458
  Real.exp (-(2 * Real.pi ^ 2 / (8 * Real.log 2) * ((emaj * a) ^ 2 + (emin * b) ^ 2)))

end Verif.Rime
