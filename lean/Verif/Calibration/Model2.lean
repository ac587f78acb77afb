/-
Model of calibration/phase_only/phase_only.py and calibration/utils/compute_and_corrupt_vis.py.
-/
import Verif.Calibration.Model
import Mathlib.Analysis.SpecialFunctions.Complex.Arg
import Mathlib.Analysis.SpecialFunctions.Trigonometric.Basic
import Mathlib.Analysis.SpecialFunctions.Sqrt

set_option autoImplicit false

noncomputable section

namespace Verif.Calibration

open Complex

/-! ### compute_and_corrupt_vis -/

/-- `n = sqrt(1 - l**2 - m**2)` (compute_and_corrupt_vis.py:18, 29, 42). Real square root: sources outside
the unit disc, for which numpy produces nan, get `n = 0`. -/
def nCoord (l m : ℝ) : ℝ := Real.sqrt (1 - l ^ 2 - m ^ 2)

/-- `np.exp(1.0j*real_phase)/n` with
`real_phase = m2pioc * freq * (u*l + v*m + w*(n-1))` (compute_and_corrupt_vis.py:19-20 and 30-31,
43-44). `m2pioc` is `constants.minus_two_pi_over_c`. -/
def fringe (m2pioc : ℝ) (uvw : Fin 3 → ℝ) (freq : ℝ) (lm : Fin 2 → ℝ) : ℂ :=
  let l := lm 0
  let m := lm 1
  let n := nCoord l m
  let realPhase := m2pioc * freq * (uvw 0 * l + uvw 1 * m + uvw 2 * (n - 1))
  exp (I * realPhase) / n

/-- `jones_mul`, DIAG_DIAG (compute_and_corrupt_vis.py:13-22). -/
def cMulDD (m2pioc : ℝ) (ndir ncorr : Nat) (a1j model a2j : Nat → Nat → ℂ) (uvw : Fin 3 → ℝ)
    (freq : ℝ) (lm : Nat → Fin 2 → ℝ) (out : Nat → ℂ) : Nat → ℂ :=
  forRange ndir out fun s out =>
    let sourceVis : Nat → ℂ := fun c => model s c * fringe m2pioc uvw freq (lm s)
    forRange ncorr out fun c out =>
      Function.update out c (out c + a1j s c * sourceVis c * (starRingEnd ℂ) (a2j s c))

/-- `jones_mul`, DIAG (compute_and_corrupt_vis.py:24-35). -/
def cMulD (m2pioc : ℝ) (ndir : Nat) (a1j : Nat → Fin 2 → ℂ) (model : Nat → M2 ℂ)
    (a2j : Nat → Fin 2 → ℂ) (uvw : Fin 3 → ℝ) (freq : ℝ) (lm : Nat → Fin 2 → ℝ) (out : M2 ℂ) : M2 ℂ :=
  forRange ndir out fun s out =>
    let sourceVis : M2 ℂ := fun i j => model s i j * fringe m2pioc uvw freq (lm s)
    !![out 0 0 + a1j s 0 * sourceVis 0 0 * star (a2j s 0),
       out 0 1 + a1j s 0 * sourceVis 0 1 * star (a2j s 1);
       out 1 0 + a1j s 1 * sourceVis 1 0 * star (a2j s 0),
       out 1 1 + a1j s 1 * sourceVis 1 1 * star (a2j s 1)]

/-- The right hand sides of compute_and_corrupt_vis.py:46-71. -/
def computeTerms (a1j sourceVis a2j : M2 ℂ) : M2 ℂ :=
  let tmp : M2 ℂ := fun i j => star (a2j j i)
  let t1 := a1j 0 0 * sourceVis 0 0
  let t2 := a1j 0 1 * sourceVis 1 0
  let t3 := a1j 0 0 * sourceVis 0 1
  let t4 := a1j 0 1 * sourceVis 1 1
  let t1' := a1j 1 0 * sourceVis 0 0
  let t2' := a1j 1 1 * sourceVis 1 0
  let t3' := a1j 1 0 * sourceVis 0 1
  let t4' := a1j 1 1 * sourceVis 1 1
  !![t1 * tmp 0 0 + t2 * tmp 0 0 + t3 * tmp 1 0 + t4 * tmp 1 0,
     t1 * tmp 0 1 + t2 * tmp 0 1 + t3 * tmp 1 1 + t4 * tmp 1 1;
     t1' * tmp 0 0 + t2' * tmp 0 0 + t3' * tmp 1 0 + t4' * tmp 1 0,
     t1' * tmp 0 1 + t2' * tmp 0 1 + t3' * tmp 1 1 + t4' * tmp 1 1]

/-- `jones_mul`, FULL (compute_and_corrupt_vis.py:37-71). -/
def cMulF (m2pioc : ℝ) (ndir : Nat) (a1j model a2j : Nat → M2 ℂ) (uvw : Fin 3 → ℝ) (freq : ℝ)
    (lm : Nat → Fin 2 → ℝ) (out : M2 ℂ) : M2 ℂ :=
  forRange ndir out fun s out =>
    let sourceVis : M2 ℂ := fun i j => model s i j * fringe m2pioc uvw freq (lm s)
    let x := computeTerms (a1j s) sourceVis (a2j s)
    !![out 0 0 + x 0 0, out 0 1 + x 0 1; out 1 0 + x 1 0, out 1 1 + x 1 1]

/-- `compute_and_corrupt_vis` (compute_and_corrupt_vis.py:77-106). The model is `(time, chan, dir, corr..)`
and `lm` is `(time, dir, 2)`. -/
def computeAndCorruptVis (m2pioc : ℝ) (ntim : Nat) (idx cnt : Nat → Nat) (ant1 ant2 : Nat → Nat)
    (nchan ndir ncorr : Nat) (jones : Jones ℂ) (model : ModelVis ℂ) (uvw : Nat → Fin 3 → ℝ)
    (freq : Nat → ℝ) (lm : Nat → Nat → Fin 2 → ℝ) : Except PyErr (Vis ℂ) :=
  match checkType jones.ndim model.ndim "model" with
  | .error e => .error e
  | .ok _ =>
    match shiftIdx ntim idx with
    | .error e => .error e
    | .ok lo =>
      match jones, model with
      | .five j, .four m => .ok <| .three <| binLoop ntim lo cnt nchan
          (fun t row nu out => cMulDD m2pioc ndir ncorr (j t (ant1 row) nu) (m t nu)
            (j t (ant2 row) nu) (uvw row) (freq nu) (lm t) out)
          fun _ _ _ => 0
      | .five j, .five m => .ok <| .four <| binLoop ntim lo cnt nchan
          (fun t row nu out => cMulD m2pioc ndir (fun s => pair (j t (ant1 row) nu s)) (m t nu)
            (fun s => pair (j t (ant2 row) nu s)) (uvw row) (freq nu) (lm t) out)
          fun _ _ => 0
      | .six j, .five m => .ok <| .four <| binLoop ntim lo cnt nchan
          (fun t row nu out => cMulF m2pioc ndir (j t (ant1 row) nu) (m t nu) (j t (ant2 row) nu)
            (uvw row) (freq nu) (lm t) out)
          fun _ _ => 0
      | .six _, .four _ => .error .runtimeError

/-! ### phase_only.py -/

/-- `(time, ant, chan, dir, corr)` arrays (calibration/phase_only/phase_only.py:156-196). -/
abbrev Arr5 (M : Type*) := Nat → Nat → Nat → Nat → Nat → M

/-- `a[t, p, nu, s] += v` (the correlation axis is added element by element) (calibration/phase_only/phase_only.py:73-140). -/
def addCell {M : Type*} [Add M] (a : Arr5 M) (t p nu s : Nat) (v : Nat → M) : Arr5 M :=
  fun t' p' nu' s' c =>
    if t' = t ∧ p' = p ∧ nu' = nu ∧ s' = s then a t' p' nu' s' c + v c else a t' p' nu' s' c

/-- The loop nest of phase_only.py:50-60, 94-104 and 134-144: time bins, rows, channels (skipping
flagged samples) and directions. -/
def nest {σ : Type*} (ntim : Nat) (lo cnt : Nat → Nat) (nchan ndir : Nat)
    (anyFlag : Nat → Nat → Bool) (body : Nat → Nat → Nat → Nat → σ → σ) (init : σ) : σ :=
  forRange ntim init fun t st =>
    forRange (cnt t) st fun k st =>
      forRange nchan st fun nu st =>
        if anyFlag (lo t + k) nu then st else
          forRange ndir st fun s st => body t (lo t + k) nu s st

/-- `jacobian` for DIAG_DIAG (phase_only.py:12-13). -/
def jacobian (a1j blj a2j : Nat → ℂ) (sign : ℂ) : Nat → ℂ :=
  fun c => sign * a1j c * blj c * (starRingEnd ℂ) (a2j c)

/-- Loop body of `compute_jhj_and_jhr` (phase_only.py:53-68). -/
def bodyBoth (ant1 ant2 : Nat → Nat) (jones : Arr5 ℂ) (residual : Nat → Nat → Nat → ℂ)
    (model : Nat → Nat → Nat → Nat → ℂ) (t row nu s : Nat) (st : Arr5 ℝ × Arr5 ℂ) :
    Arr5 ℝ × Arr5 ℂ :=
  let p := ant1 row
  let q := ant2 row
  let gp := jones t p nu
  let gq := jones t q nu
  let jac := jacobian (gp s) (model row nu s) (gq s) I
  let jhj := addCell st.1 t p nu s fun c => ((starRingEnd ℂ) (jac c) * jac c).re
  let jhr := addCell st.2 t p nu s fun c => (starRingEnd ℂ) (jac c) * residual row nu c
  let jac := jacobian (gp s) (model row nu s) (gq s) (-I)
  (addCell jhj t q nu s fun c => ((starRingEnd ℂ) (jac c) * jac c).re,
   addCell jhr t q nu s fun c => (starRingEnd ℂ) (jac c) * residual row nu c)

/-- `compute_jhj_and_jhr` (phase_only.py:26-70). The numbers of axes decide on the mode. -/
def computeJhjAndJhr (jonesNdim residualNdim : Nat) (ntim : Nat) (idx cnt ant1 ant2 : Nat → Nat)
    (nchan ndir : Nat) (jones : Arr5 ℂ) (residual : Nat → Nat → Nat → ℂ)
    (model : Nat → Nat → Nat → Nat → ℂ) (anyFlag : Nat → Nat → Bool) :
    Except PyErr (Arr5 ℝ × Arr5 ℂ) :=
  match checkType jonesNdim residualNdim "vis" with
  | .error e => .error e
  | .ok .diagDiag =>
    match shiftIdx ntim idx with
    | .error e => .error e
    | .ok lo => .ok <| nest ntim lo cnt nchan ndir anyFlag
        (bodyBoth ant1 ant2 jones residual model) (fun _ _ _ _ _ => 0, fun _ _ _ _ _ => 0)
  | .ok _ => .error .notImplementedError

/-- Loop body of `compute_jhj` (phase_only.py:97-108). -/
def bodyJhj (ant1 ant2 : Nat → Nat) (jones : Arr5 ℂ) (model : Nat → Nat → Nat → Nat → ℂ)
    (t row nu s : Nat) (jhj : Arr5 ℝ) : Arr5 ℝ :=
  let p := ant1 row
  let q := ant2 row
  let gp := jones t p nu
  let gq := jones t q nu
  let jac := jacobian (gp s) (model row nu s) (gq s) I
  let jhj := addCell jhj t p nu s fun c => ((starRingEnd ℂ) (jac c) * jac c).re
  let jac := jacobian (gp s) (model row nu s) (gq s) (-I)
  addCell jhj t q nu s fun c => ((starRingEnd ℂ) (jac c) * jac c).re

/-- `compute_jhj` (phase_only.py:74-110), DIAG_DIAG mode. -/
def computeJhj (ntim : Nat) (idx cnt ant1 ant2 : Nat → Nat) (nchan ndir : Nat) (jones : Arr5 ℂ)
    (model : Nat → Nat → Nat → Nat → ℂ) (anyFlag : Nat → Nat → Bool) : Except PyErr (Arr5 ℝ) :=
  match shiftIdx ntim idx with
  | .error e => .error e
  | .ok lo => .ok <| nest ntim lo cnt nchan ndir anyFlag (bodyJhj ant1 ant2 jones model)
      fun _ _ _ _ _ => 0

/-- Loop body of `compute_jhr` (phase_only.py:137-148). -/
def bodyJhr (ant1 ant2 : Nat → Nat) (jones : Arr5 ℂ) (residual : Nat → Nat → Nat → ℂ)
    (model : Nat → Nat → Nat → Nat → ℂ) (t row nu s : Nat) (jhr : Arr5 ℂ) : Arr5 ℂ :=
  let p := ant1 row
  let q := ant2 row
  let gp := jones t p nu
  let gq := jones t q nu
  let jac := jacobian (gp s) (model row nu s) (gq s) I
  let jhr := addCell jhr t p nu s fun c => (starRingEnd ℂ) (jac c) * residual row nu c
  let jac := jacobian (gp s) (model row nu s) (gq s) (-I)
  addCell jhr t q nu s fun c => (starRingEnd ℂ) (jac c) * residual row nu c

/-- `compute_jhr` (phase_only.py:114-150), DIAG_DIAG mode. -/
def computeJhr (ntim : Nat) (idx cnt ant1 ant2 : Nat → Nat) (nchan ndir : Nat) (jones : Arr5 ℂ)
    (residual : Nat → Nat → Nat → ℂ) (model : Nat → Nat → Nat → Nat → ℂ)
    (anyFlag : Nat → Nat → Bool) : Except PyErr (Arr5 ℂ) :=
  match shiftIdx ntim idx with
  | .error e => .error e
  | .ok lo => .ok <| nest ntim lo cnt nchan ndir anyFlag (bodyJhr ant1 ant2 jones residual model)
      fun _ _ _ _ _ => 0

/-- `arr.max()` of a list of numbers; numpy raises `ValueError` on an empty array (calibration/phase_only/phase_only.py:156-196). -/
def npMax (l : List ℝ) : Except PyErr ℝ :=
  match l with
  | [] => .error .valueError
  | x :: xs => .ok (xs.foldl max x)

/-- Extents of the Jones array: time, antenna, channel, direction, correlation (calibration/phase_only/phase_only.py:156-196). -/
structure Ext5 where
  ntim : Nat
  nant : Nat
  nchan : Nat
  ndir : Nat
  ncorr : Nat

/-- All elements of a five-dimensional array, in memory order (calibration/phase_only/phase_only.py:156-196). -/
def elems {M : Type*} (e : Ext5) (a : Arr5 M) : List M :=
  (List.range e.ntim).flatMap fun t => (List.range e.nant).flatMap fun p =>
    (List.range e.nchan).flatMap fun nu => (List.range e.ndir).flatMap fun s =>
      (List.range e.ncorr).map fun c => a t p nu s c

/-- One pass of the `while` loop of `gauss_newton` (phase_only.py:177-193): the new gains, `jhr` and
`eps`. -/
def gnStep (e : Ext5) (idx cnt ant1 ant2 : Nat → Nat) (vis : Nat → Nat → Nat → ℂ)
    (anyFlag : Nat → Nat → Bool) (model : Nat → Nat → Nat → Nat → ℂ) (jhj : Arr5 ℝ) (jones : Arr5 ℂ) :
    Except PyErr (Arr5 ℂ × Arr5 ℂ × ℝ) :=
  let phases : Arr5 ℝ := fun t p nu s c => (jones t p nu s c).arg
  match residualVis e.ntim idx cnt ant1 ant2 e.nchan e.ndir (.five jones) (.three vis) anyFlag
      (.four model) with
  | .error err => .error err
  | .ok (.four _) => .error .typeError
  | .ok (.three residual) =>
    match computeJhr e.ntim idx cnt ant1 ant2 e.nchan e.ndir jones residual model anyFlag with
    | .error err => .error err
    | .ok jhr =>
      let phasesNew : Arr5 ℝ := fun t p nu s c =>
        phases t p nu s c + 0.5 * (jhr t p nu s c / (jhj t p nu s c : ℂ)).re
      match npMax (elems e fun t p nu s c => |phasesNew t p nu s c - phases t p nu s c|) with
      | .error err => .error err
      | .ok eps => .ok (fun t p nu s c => exp (I * phasesNew t p nu s c), jhr, eps)

/-- The `while` loop of `gauss_newton` (phase_only.py:176-194); the first argument is `maxiter - k`. Until
the first pass `jhr` is unbound. -/
def gnWhile (step : Arr5 ℂ → Except PyErr (Arr5 ℂ × Arr5 ℂ × ℝ)) (tol : ℝ) :
    Nat → ℝ → Nat → Arr5 ℂ → Option (Arr5 ℂ) → Except PyErr (Arr5 ℂ × Option (Arr5 ℂ) × Nat)
  | 0, _, k, jones, jhr => .ok (jones, jhr, k)
  | fuel + 1, eps, k, jones, jhr =>
    open Classical in
    if eps > tol then
      match step jones with
      | .error err => .error err
      | .ok (jones', jhr', eps') => gnWhile step tol fuel eps' (k + 1) jones' (some jhr')
    else .ok (jones, jhr, k)

/-- `gauss_newton` (phase_only.py:156-196). Line 196 returns `jhr`, which is unbound when the loop
body never ran. Division by a zero `jhj` entry gives nan in the code; it is excluded by the
theorems. -/
def gaussNewton (jonesNdim visNdim : Nat) (e : Ext5) (idx cnt ant1 ant2 : Nat → Nat) (jones : Arr5 ℂ)
    (vis : Nat → Nat → Nat → ℂ) (anyFlag : Nat → Nat → Bool) (model : Nat → Nat → Nat → Nat → ℂ)
    (weight : Nat → Nat → Nat → ℝ) (tol : ℝ) (maxiter : Nat) :
    Except PyErr (Arr5 ℂ × Arr5 ℝ × Arr5 ℂ × Nat) :=
  let vis' : Nat → Nat → Nat → ℂ := fun r nu c => vis r nu c * Real.sqrt (weight r nu c)
  let model' : Nat → Nat → Nat → Nat → ℂ := fun r nu s c => model r nu s c * Real.sqrt (weight r nu c)
  match checkType jonesNdim visNdim "vis" with
  | .error err => .error err
  | .ok .diagDiag =>
    match computeJhj e.ntim idx cnt ant1 ant2 e.nchan e.ndir jones model' anyFlag with
    | .error err => .error err
    | .ok jhj =>
      match gnWhile (gnStep e idx cnt ant1 ant2 vis' anyFlag model' jhj) tol maxiter 1 0 jones none with
      | .error err => .error err
      | .ok (_, none, _) => .error .unboundLocalError
      | .ok (g, some jhr, k) => .ok (g, jhj, jhr, k)
  | .ok _ => .error .notImplementedError

end Verif.Calibration
