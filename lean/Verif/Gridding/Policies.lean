/-
Model of africanus/gridding/perleypolyhedron/policies: stokes_conversion_policies.py, phase_transform_policies.py and
baseline_transform_policies.py. Floating point numbers are real and complex numbers.
-/
import Verif.Loops
import Mathlib.Analysis.SpecialFunctions.Trigonometric.Basic
import Mathlib.Analysis.Real.Sqrt

set_option autoImplicit false

namespace Verif.Gridding

/-! ## Stokes conversion -/

/-- Add `x` to element `i` (gridding/perleypolyhedron/policies/stokes_conversion_policies.py:8-139). -/
def addAt (v : Nat → ℂ) (i : Nat) (x : ℂ) : Nat → ℂ := Function.update v i (v i + x)

/-- `stokes2corr` (stokes_conversion_policies.py:8-139): adds one Stokes parameter to the correlations. -/
noncomputable def stokes2corr (policy : String) (s : ℂ) (v : Nat → ℂ) : Except PyErr (Nat → ℂ) :=
  if policy = "XXYY_FROM_I" then .ok (addAt (addAt v 0 s) 1 s)
  else if policy = "XXXYYXYY_FROM_I" then .ok (addAt (addAt (addAt (addAt v 0 s) 1 0) 2 0) 3 s)
  else if policy = "RRLL_FROM_I" then .ok (addAt (addAt v 0 s) 1 s)
  else if policy = "RRRLLRLL_FROM_I" then .ok (addAt (addAt (addAt (addAt v 0 s) 1 0) 2 0) 3 s)
  else if policy = "XXYY_FROM_Q" then .ok (addAt (addAt v 0 s) 1 (-s))
  else if policy = "XXXYYXYY_FROM_Q" then .ok (addAt (addAt (addAt (addAt v 0 s) 1 0) 2 0) 3 (-s))
  else if policy = "RLLR_FROM_Q" then .ok (addAt (addAt v 0 s) 1 s)
  else if policy = "RRRLLRLL_FROM_Q" then .ok (addAt (addAt (addAt (addAt v 0 0) 1 s) 2 s) 3 0)
  else if policy = "XYYX_FROM_U" then .ok (addAt (addAt v 0 s) 1 s)
  else if policy = "XXXYYXYY_FROM_U" then .ok (addAt (addAt (addAt (addAt v 0 0) 1 s) 2 s) 3 0)
  else if policy = "RLLR_FROM_U" then .ok (addAt (addAt v 0 (Complex.I * s)) 1 (-Complex.I * s))
  else if policy = "RRRLLRLL_FROM_U" then .ok (addAt (addAt (addAt (addAt v 0 0) 1 (Complex.I * s)) 2 (-Complex.I * s)) 3 0)
  else if policy = "XYYX_FROM_V" then .ok (addAt (addAt v 0 (Complex.I * s)) 1 (-Complex.I * s))
  else if policy = "XXXYYXYY_FROM_V" then .ok (addAt (addAt (addAt (addAt v 0 0) 1 (Complex.I * s)) 2 (-Complex.I * s)) 3 0)
  else if policy = "RRLL_FROM_V" then .ok (addAt (addAt v 0 s) 1 (-s))
  else if policy = "RRRLLRLL_FROM_V" then .ok (addAt (addAt (addAt (addAt v 0 s) 1 0) 2 0) 3 (-s))
  else .error .valueError

/-- `corr2stokes` (stokes_conversion_policies.py:146-183). -/
noncomputable def corr2stokes (policy : String) (v : Nat → ℂ) : Except PyErr ℂ :=
  if policy = "I_FROM_XXYY" then .ok ((v 0 + v 1) * (1 / 2))
  else if policy = "I_FROM_XXXYYXYY" then .ok ((v 0 + v 3) * (1 / 2))
  else if policy = "I_FROM_RRLL" then .ok ((v 0 + v 1) * (1 / 2))
  else if policy = "I_FROM_RRRLLRLL" then .ok ((v 0 + v 3) * (1 / 2))
  else if policy = "Q_FROM_XXYY" then .ok ((v 0 - v 1) * (1 / 2))
  else if policy = "Q_FROM_XXXYYXYY" then .ok ((v 0 - v 3) * (1 / 2))
  else if policy = "Q_FROM_RRRLLRLL" then .ok ((v 1 + v 2) * (1 / 2))
  else if policy = "U_FROM_XYYX" then .ok ((v 0 + v 1) * (1 / 2))
  else if policy = "U_FROM_XXXYYXYY" then .ok ((v 1 + v 2) * (1 / 2))
  else if policy = "U_FROM_RLLR" then .ok (-Complex.I * (v 0 - v 1) * (1 / 2))
  else if policy = "U_FROM_RRRLLRLL" then .ok (-Complex.I * (v 1 - v 2) * (1 / 2))
  else if policy = "V_FROM_RRLL" then .ok ((v 0 - v 1) * (1 / 2))
  else if policy = "V_FROM_RRRLLRLL" then .ok ((v 0 - v 3) * (1 / 2))
  else if policy = "V_FROM_XYYX" then .ok (-Complex.I * (v 0 - v 1) * (1 / 2))
  else if policy = "V_FROM_XXXYYXYY" then .ok (-Complex.I * (v 1 - v 2) * (1 / 2))
  else .error .valueError

/-- `ncorr_out` (stokes_conversion_policies.py:190-225). -/
def ncorrOut (policy : String) : Except PyErr Nat :=
  if policy = "XXYY_FROM_I" then .ok 2
  else if policy = "XXXYYXYY_FROM_I" then .ok 4
  else if policy = "RRLL_FROM_I" then .ok 2
  else if policy = "RRRLLRLL_FROM_I" then .ok 4
  else if policy = "XXYY_FROM_Q" then .ok 2
  else if policy = "XXXYYXYY_FROM_Q" then .ok 4
  else if policy = "RLLR_FROM_Q" then .ok 2
  else if policy = "RRRLLRLL_FROM_Q" then .ok 4
  else if policy = "XYYX_FROM_U" then .ok 2
  else if policy = "XXXYYXYY_FROM_U" then .ok 4
  else if policy = "RLLR_FROM_U" then .ok 2
  else if policy = "RRRLLRLL_FROM_U" then .ok 4
  else if policy = "XYYX_FROM_V" then .ok 2
  else if policy = "XXXYYXYY_FROM_V" then .ok 4
  else if policy = "RRLL_FROM_V" then .ok 2
  else if policy = "RRRLLRLL_FROM_V" then .ok 4
  else .error .valueError

/-- `ncorr_outpy` (stokes_conversion_policies.py:228-262); the thunk it returns is applied. -/
def ncorrOutPy (policy : String) : Except PyErr Nat :=
  if policy = "XXYY_FROM_I" then .ok 2
  else if policy = "XXXYYXYY_FROM_I" then .ok 4
  else if policy = "RRLL_FROM_I" then .ok 2
  else if policy = "RRRLLRLL_FROM_I" then .ok 4
  else if policy = "XXYY_FROM_Q" then .ok 2
  else if policy = "XXXYYXYY_FROM_Q" then .ok 4
  else if policy = "RLLR_FROM_Q" then .ok 2
  else if policy = "RRRLLRLL_FROM_Q" then .ok 4
  else if policy = "XYYX_FROM_U" then .ok 2
  else if policy = "XXXYYXYY_FROM_U" then .ok 4
  else if policy = "RLLR_FROM_U" then .ok 2
  else if policy = "RRRLLRLL_FROM_U" then .ok 4
  else if policy = "XYYX_FROM_V" then .ok 2
  else if policy = "XXXYYXYY_FROM_V" then .ok 4
  else if policy = "RRLL_FROM_V" then .ok 2
  else if policy = "RRRLLRLL_FROM_V" then .ok 4
  else .error .valueError

/-! ## Phase and baseline transforms -/

/-- A direction: right ascension and declination (gridding/perleypolyhedron/policies/phase_transform_policies.py:5-57). -/
abbrev RaDec := ℝ × ℝ

/-- `ll`, `mm`, `nn` of `phase_rotate` (phase_transform_policies.py:36-47). -/
noncomputable def phaseLmn (p0 p : RaDec) : ℝ × ℝ × ℝ :=
  let dRa := p.1 - p0.1
  let ll := Real.cos p.2 * Real.sin dRa
  let mm := Real.sin p.2 * Real.cos p0.2 - Real.cos p.2 * Real.sin p0.2 * Real.cos dRa
  (ll, mm, -(1 - Real.sqrt (1 - ll * ll - mm * mm)))

/-- `phase_rotate` (phase_transform_policies.py:17-51) on the visibilities `vis[chan, corr]` of one row. -/
noncomputable def phaseRotate (vis : Nat → Nat → ℂ) (u v w : ℝ) (lambdas : Nat → ℝ) (p0 p : RaDec) (sign : ℝ) : Nat → Nat → ℂ :=
  let lmn := phaseLmn p0 p
  fun c k =>
    let x := sign * 2 * Real.pi * (u * lmn.1 + v * lmn.2.1 + w * lmn.2.2) / lambdas c
    vis c k * ((Real.cos x : ℂ) + Complex.I * (Real.sin x : ℂ))

/-- The phase policies (phase_transform_policies.py:58-74). -/
noncomputable def phasePolicy (policy : String) (vis : Nat → Nat → ℂ) (u v w : ℝ) (lambdas : Nat → ℝ) (p0 p : RaDec) (sign : ℝ) :
    Except PyErr (Nat → Nat → ℂ) :=
  if policy = "None" then .ok vis
  else if policy = "phase_rotate" then .ok (phaseRotate vis u v w lambdas p0 p sign)
  else .error .valueError

/-- The nine coefficients of `uvw_rotate` (baseline_transform_policies.py:31-46), row by row. -/
noncomputable def rotMatrix (p0 p : RaDec) : (ℝ × ℝ × ℝ) × (ℝ × ℝ × ℝ) × (ℝ × ℝ × ℝ) :=
  let dRa := p.1 - p0.1
  let cd := Real.cos dRa
  let sd := Real.sin dRa
  let cn := Real.cos p.2
  let co := Real.cos p0.2
  let sn := Real.sin p.2
  let so := Real.sin p0.2
  ((cd, so * sd, -co * sd), (-sn * sd, sn * so * cd + cn * co, -co * sn * cd + cn * so),
    (cn * sd, -cn * so * cd + sn * co, cn * co * cd + sn * so))

/-- `uvw_rotate` (baseline_transform_policies.py:9-49) on memory: the row starts at address `a`, and `uvw[3]` is the next number
in memory. -/
noncomputable def uvwRotate (mem : Nat → ℝ) (a : Nat) (p0 p : RaDec) : Nat → ℝ :=
  let m := rotMatrix p0 p
  let mem1 := Function.update mem a (m.1.1 * mem a + m.1.2.1 * mem (a + 1) + m.1.2.2 * mem (a + 3))
  let mem2 := Function.update mem1 (a + 1) (m.2.1.1 * mem1 a + m.2.1.2.1 * mem1 (a + 1) + m.2.1.2.2 * mem1 (a + 3))
  Function.update mem2 (a + 2) (m.2.2.1 * mem2 a + m.2.2.2.1 * mem2 (a + 1) + m.2.2.2.2 * mem2 (a + 3))

/-- `li0`, `mi0`, `ni0` of `uvw_planarwapprox` (baseline_transform_policies.py:66-77). -/
noncomputable def planarLmn (p0 p : RaDec) : ℝ × ℝ × ℝ :=
  let dRa := p.1 - p0.1
  (Real.cos p.2 * Real.sin dRa, Real.sin p.2 * Real.cos p0.2 - Real.cos p.2 * Real.sin p0.2 * Real.cos dRa,
    Real.sin p.2 * Real.sin p0.2 + Real.cos p.2 * Real.cos p0.2 * Real.cos dRa)

/-- `uvw_planarwapprox` (baseline_transform_policies.py:52-79). -/
noncomputable def uvwPlanar (mem : Nat → ℝ) (a : Nat) (p0 p : RaDec) : Nat → ℝ :=
  let l := planarLmn p0 p
  let mem1 := Function.update mem a (mem a - mem (a + 2) * l.1 / l.2.2)
  Function.update mem1 (a + 1) (mem1 (a + 1) - mem1 (a + 2) * l.2.1 / l.2.2)

/-- The baseline policies (baseline_transform_policies.py:82-95). -/
noncomputable def baselinePolicy (policy : String) (mem : Nat → ℝ) (a : Nat) (p0 p : RaDec) : Except PyErr (Nat → ℝ) :=
  if policy = "None" then .ok mem
  else if policy = "rotate" then .ok (uvwRotate mem a p0 p)
  else if policy = "wlinapprox" then .ok (uvwPlanar mem a p0 p)
  else .error .valueError

end Verif.Gridding
