/-
Model of the scalar and 2x2 terms of the RIME: africanus/rime/phase.py, feeds.py, transform.py and
wsclean_predict.py.

Floating point numbers are real numbers. Loops that assign every cell of a fresh array once, from inputs only,
are written as functions of the cell's indices.
-/
import Verif.Basic
import Mathlib.Analysis.SpecialFunctions.Trigonometric.Basic
import Mathlib.Analysis.SpecialFunctions.Sqrt
import Mathlib.Analysis.SpecialFunctions.Log.Basic
import Mathlib.Data.Matrix.Basic
import Mathlib.LinearAlgebra.Matrix.Notation

set_option autoImplicit false

namespace Verif.Rime

open Function

/-- `c` of africanus/constants/consts.py:8 (metres per second). -/
noncomputable def lightspeed : ℝ := 299792458

/-- `two_pi_over_c` of africanus/constants/consts.py:10; line 11 is its negative. -/
noncomputable def twoPiOverC : ℝ := 2 * Real.pi / lightspeed

/-- The choice of sign (phase.py:20-25). -/
noncomputable def phaseConstant (convention : String) : Except PyErr ℝ :=
  if convention = "fourier" then .ok (-twoPiOverC)
  else if convention = "casa" then .ok (- -twoPiOverC)
  else .error .valueError

/-- One cell of `phase_delay` (phase.py:32-48): cosine and sine written to the real and imaginary parts. -/
noncomputable def phaseCell (constant l m u v w freq : ℝ) : ℂ :=
  let n := Real.sqrt (1 - l ^ 2 - m ^ 2) - 1
  let realPhase := constant * (l * u + m * v + n * w)
  let p := realPhase * freq
  ⟨Real.cos p, Real.sin p⟩

/-- `phase_delay` (phase.py:12-52). -/
noncomputable def phaseDelay (lm : Nat → ℝ × ℝ) (uvw : Nat → ℝ × ℝ × ℝ) (frequency : Nat → ℝ)
    (convention : String) : Except PyErr (Nat → Nat → Nat → ℂ) :=
  match phaseConstant convention with
  | .error e => .error e
  | .ok constant => .ok fun s r f =>
    phaseCell constant (lm s).1 (lm s).2 (uvw r).1 (uvw r).2.1 (uvw r).2.2 (frequency f)

/-! ### feed rotation -/

/-- The 2x2 matrix written for one angle by `_nb_feed_rotation` (feeds.py:14-49). -/
noncomputable def nbFeedRotation (pa : ℝ) (feedType : Nat) : Except PyErr (Matrix (Fin 2) (Fin 2) ℂ) :=
  if feedType = 0 then
    .ok !![⟨Real.cos pa, 0⟩, ⟨Real.sin pa, 0⟩; ⟨-Real.sin pa, 0⟩, ⟨Real.cos pa, 0⟩]
  else if feedType = 1 then
    .ok !![⟨Real.cos pa, -Real.sin pa⟩, 0; 0, ⟨Real.cos pa, Real.sin pa⟩]
  else .error .valueError

/-- `feed_rotation` (feeds.py:13-72) at one angle; the array is the elementwise application. -/
noncomputable def feedRotation (pa : ℝ) (feedType : String) : Except PyErr (Matrix (Fin 2) (Fin 2) ℂ) :=
  if feedType = "linear" then nbFeedRotation pa 0
  else if feedType = "circular" then nbFeedRotation pa 1
  else .error .valueError

/-! ### transform_sources -/

/-- The body of `_nb_transform_sources` (transform.py:27-41) for one time, antenna, source and channel.
Line 31 reads the `l` that line 30 has just assigned. -/
noncomputable def transformSource (l0 m0 pa pe0 pe1 scaling freq : ℝ) : ℝ × ℝ × ℝ :=
  let paSin := Real.sin pa
  let paCos := Real.cos pa
  let l := l0 * paCos - m0 * paSin
  let m := l * paSin + m0 * paCos
  let l := l + pe0
  let m := m + pe1
  (l * scaling, m * scaling, freq)

/-! ### wsclean_predict -/

/-- `gauss_scale` (wsclean_predict.py:12-14). -/
noncomputable def gaussScale : ℝ :=
  1 / (2 * Real.sqrt (2 * Real.log 2)) * Real.sqrt 2 * Real.pi / lightspeed

/-- The contribution of a point source to one cell (wsclean_predict.py:36-48). -/
noncomputable def wsPoint (l m u v w freq spec : ℝ) : ℂ :=
  let n := Real.sqrt (1 - l * l - m * m) - 1
  let realPhase := twoPiOverC * (u * l + v * m + w * n)
  let p := realPhase * freq
  let re := Real.cos p * spec
  let im := Real.sin p * spec
  re + im * Complex.I

/-- The contribution of a Gaussian source to one cell (wsclean_predict.py:50-82). -/
noncomputable def wsGauss (l m u v w freq spec emaj emin angle : ℝ) : ℂ :=
  let n := Real.sqrt (1 - l * l - m * m) - 1
  let el := emaj * Real.sin angle
  let em := emaj * Real.cos angle
  let er := emin / (if emaj = 0 then 1 else emaj)
  let realPhase := twoPiOverC * (u * l + v * m + w * n)
  let u1 := (u * em - v * el) * er
  let v1 := u * el + v * em
  let p := realPhase * freq
  let re := Real.cos p * spec
  let im := Real.sin p * spec
  let scaledFreq := freq * gaussScale
  let fu1 := u1 * scaledFreq
  let fv1 := v1 * scaledFreq
  let shape := Real.exp (-(fu1 * fu1 + fv1 * fv1))
  let re := re * shape
  let im := im * shape
  re + im * Complex.I

/-- One source of the WSClean model (rime/wsclean_predict.py:16-86). -/
structure WsSource where
  l : ℝ
  m : ℝ
  sourceType : String
  emaj : ℝ
  emin : ℝ
  angle : ℝ
  /-- the spectrum evaluated at each channel -/
  spectrum : Nat → ℝ

/-- `wsclean_predict_impl` (wsclean_predict.py:18-87) for one row and channel: `vis[r, f, 0]` is accumulated over the
sources. The row and channel loops are independent of each other and are pulled out; an unknown source type
raises when it is reached. -/
noncomputable def wsPredictCell (uvw : ℝ × ℝ × ℝ) (freq : ℝ) (f : Nat) (src : Nat → WsSource) (nsrc : Nat) :
    Except PyErr ℂ :=
  forRangeM nsrc (0 : ℂ) fun s vis =>
    if (src s).sourceType = "POINT" then
      .ok (vis + wsPoint (src s).l (src s).m uvw.1 uvw.2.1 uvw.2.2 freq ((src s).spectrum f))
    else if (src s).sourceType = "GAUSSIAN" then
      .ok (vis + wsGauss (src s).l (src s).m uvw.1 uvw.2.1 uvw.2.2 freq ((src s).spectrum f)
        (src s).emaj (src s).emin (src s).angle)
    else .error .valueError

end Verif.Rime
