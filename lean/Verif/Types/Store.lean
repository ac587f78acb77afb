/-
Frequencies of integer type. Several functions keep intermediate results in arrays of the type of the frequencies; numba converts
what is stored to that type.
-/
import Verif.ModelData.Spectral
import Verif.Rime.ModelBeam
import Verif.Averaging.Model2
import Mathlib.Algebra.Order.Floor.Ring
import Mathlib.Algebra.Order.Archimedean.Real.Basic

set_option autoImplicit false

namespace Verif.Types

/-- The conversion of a float to an integer type: rounding towards zero (values beyond the range of the type are not
modelled) (for the arrays of type int8 in linalg/kronecker_tools.py:7-26). -/
noncomputable def toInteger (x : ℝ) : ℝ := if 0 ≤ x then (⌊x⌋ : ℝ) else (⌈x⌉ : ℝ)

/-- One cell of `gaussian` (model/shape/gaussian_shape.py:12-52) where `scaled_freq = np.empty_like(frequency)` (27) has a type
into which `store` converts. -/
noncomputable def gaussianShapeInto (store : ℝ → ℝ) (u v _w freq emaj emin angle : ℝ) : ℝ :=
  let scaledFreq := store (freq * Rime.gaussScale)
  let el := emaj * Real.sin angle
  let em := emaj * Real.cos angle
  let er := emin / (if emaj = 0 then 1 else emaj)
  let u1 := (u * em - v * el) * er
  let v1 := u * el + v * em
  let fu1 := u1 * scaledFreq
  let fv1 := v1 * scaledFreq
  Real.exp (-(fu1 * fu1 + fv1 * fv1))

/-- One row of `freq_grid_interp` (rime/fast_beam_cubes.py:11-54) where `freq_data` (14-15) has the type of the frequencies. -/
noncomputable def freqDataInto (store : ℝ → ℝ) (grid : Int → ℝ) (nud : Nat) (freq : ℝ) : ℝ × ℝ × Int :=
  let b := Rime.bsearch grid freq 0 ((nud : Int) - 1)
  let lower := min b.1 b.2
  let upper := lower + 1
  if lower = -1 then (store (freq / grid 0), store 1, 0)
  else if upper = nud then (store (freq / grid ((nud : Int) - 1)), store 0, (nud : Int) - 2)
  else (store 1, store ((grid upper - freq) / (grid upper - grid lower)), lower)

/-- The cells read and their weights (fast_beam_cubes.py:99-209). -/
noncomputable def beamReadInto (store : ℝ → ℝ) (lw mh nud : Nat) (ext : (ℝ × ℝ) × (ℝ × ℝ)) (grid : Int → ℝ)
    (l m pa pe0 pe1 as0 as1 freq : ℝ) : List ((Int × Int × Int) × ℝ) :=
  let fd := freqDataInto store grid nud freq
  let v := Rime.beamCoords l m fd.1 pe0 pe1 pa as0 as1
  Rime.beamCells (Rime.axisPos lw ext.1.1 ext.1.2 v.1) (Rime.axisPos mh ext.2.1 ext.2.2 v.2) fd.2.1 fd.2.2

/-- One value of `beam_cube_dde` (fast_beam_cubes.py:57-224). -/
noncomputable def beamCubeDdeInto (store : ℝ → ℝ) (lw mh nud : Nat) (beam : Int → Int → Int → ℂ) (ext : (ℝ × ℝ) × (ℝ × ℝ))
    (grid : Int → ℝ) (l m pa pe0 pe1 as0 as1 freq : ℝ) : Except PyErr ℂ :=
  if lw < 2 ∨ mh < 2 ∨ nud < 2 then .error .valueError
  else .ok (Rime.beamValue (beamReadInto store lw mh nud ext grid l m pa pe0 pe1 as0 as1 freq) beam)

/-- The frequencies `chan_average` returns (averaging/time_and_channel_avg.py:652-656, 671-688): `chan_freq_avg` has the type of
`chan_freq`; sums of integers are exact, the quotients are converted. -/
noncomputable def chanFreqInto (store : ℝ → ℝ) (nchan : Nat) (chanMap : Nat → Nat) (chanFreq : Nat → ℝ) : Nat → ℝ :=
  let accum := forRange nchan (fun _ => (0 : ℝ)) fun f a => Averaging.add1 a (chanMap f) (chanFreq f)
  let counts := forRange nchan (fun _ => (0 : Nat)) fun f a => Averaging.add1 a (chanMap f) 1
  fun o => store (accum o / counts o)

end Verif.Types
