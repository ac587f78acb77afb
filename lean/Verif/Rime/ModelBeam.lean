/-
Model of africanus/rime/fast_beam_cubes.py. Floating point numbers are real numbers; integer overflow of the
int32 grid positions is not modelled.
-/
import Verif.Basic
import Mathlib.Analysis.SpecialFunctions.Trigonometric.Basic
import Mathlib.Algebra.Order.Archimedean.Real.Basic
import Mathlib.Algebra.Order.Floor.Ring

set_option autoImplicit false

namespace Verif.Rime

/-- The `while` loop of `freq_grid_interp` (fast_beam_cubes.py:23-33), from the current `lower` and `upper`; the
grid is a function on integers. Returns `lower` and `upper` on exit. -/
noncomputable def bsearch (grid : Int → ℝ) (freq : ℝ) (lower upper : Int) : Int × Int :=
  if lower ≤ upper then
    let mid := lower + (upper - lower) / 2
    if grid mid < freq then bsearch grid freq (mid + 1) upper
    else if grid mid > freq then bsearch grid freq lower (mid - 1)
    else (mid, upper)
  else (lower, upper)
termination_by (upper - lower + 1).toNat
decreasing_by all_goals omega

/-- One row of `freq_data` (fast_beam_cubes.py:18-53): scale, lower weight and lower grid position. -/
noncomputable def freqData (grid : Int → ℝ) (nud : Nat) (freq : ℝ) : ℝ × ℝ × Int :=
  let b := bsearch grid freq 0 ((nud : Int) - 1)
  let lower := min b.1 b.2
  let upper := lower + 1
  if lower = -1 then (freq / grid 0, 1, 0)
  else if upper = nud then (freq / grid ((nud : Int) - 1), 0, (nud : Int) - 2)
  else (1, (grid upper - freq) / (grid upper - grid lower), lower)

/-- Position along one axis of the cube: shift and scale, clamp, snap to the lower and upper grid lines
(fast_beam_cubes.py:138-157). Returns lower line, upper line and offset. -/
noncomputable def axisPos (n : Nat) (lo hi v : ℝ) : Int × Int × ℝ :=
  let nmax : ℝ := ((n : Int) - 1 : Int)
  let scale := nmax / (hi - lo)
  let v := scale * (v - lo)
  let v := max 0 (min v nmax)
  let g0 := ⌊v⌋
  let g1 := min (g0 + 1) ((n : Int) - 1)
  (g0, g1, v - g0)

/-- The source's coordinates at one time, antenna and channel (fast_beam_cubes.py:122-136). -/
noncomputable def beamCoords (l m scale pe0 pe1 pa as0 as1 : ℝ) : ℝ × ℝ :=
  let sl := l * scale
  let sm := m * scale
  let tl := sl + pe0
  let tm := sm + pe1
  let vl := tl * Real.cos pa - tm * Real.sin pa
  let vm := tl * Real.sin pa + tm * Real.cos pa
  (vl * as0, vm * as1)

/-- The eight cells read and their weights, in order (fast_beam_cubes.py:164-222). -/
noncomputable def beamCells (pl pm : Int × Int × ℝ) (nud : ℝ) (gc0 : Int) : List ((Int × Int × Int) × ℝ) :=
  let gl0 := pl.1; let gl1 := pl.2.1; let ld := pl.2.2
  let gm0 := pm.1; let gm1 := pm.2.1; let md := pm.2.2
  let invNud := 1 - nud
  let gc1 := gc0 + 1
  [((gl0, gm0, gc0), (1 - ld) * (1 - md) * nud),
   ((gl1, gm0, gc0), ld * (1 - md) * nud),
   ((gl0, gm1, gc0), (1 - ld) * md * nud),
   ((gl1, gm1, gc0), ld * md * nud),
   ((gl0, gm0, gc1), (1 - ld) * (1 - md) * invNud),
   ((gl1, gm0, gc1), ld * (1 - md) * invNud),
   ((gl0, gm1, gc1), (1 - ld) * md * invNud),
   ((gl1, gm1, gc1), ld * md * invNud)]

/-- Accumulation of one correlation over the cells (fast_beam_cubes.py:160-222) and normalisation (224-232). -/
noncomputable def beamValue (cells : List ((Int × Int × Int) × ℝ)) (beam : Int → Int → Int → ℂ) : ℂ :=
  let acc := cells.foldl (fun (acc : ℝ × ℂ) e =>
    (acc.1 + e.2 * ‖beam e.1.1 e.1.2.1 e.1.2.2‖, acc.2 + e.2 * beam e.1.1 e.1.2.1 e.1.2.2)) (0, 0)
  let div := ‖acc.2‖
  if div = 0 then acc.2 * acc.1 else acc.2 * ((acc.1 / div : ℝ) : ℂ)

/-- The cells read by `beam_cube_dde` for one source, time, antenna and channel (rime/fast_beam_cubes.py:58-235). -/
noncomputable def beamRead (lw mh nud : Nat) (ext : (ℝ × ℝ) × (ℝ × ℝ)) (grid : Int → ℝ)
    (l m pa pe0 pe1 as0 as1 freq : ℝ) : List ((Int × Int × Int) × ℝ) :=
  let fd := freqData grid nud freq
  let v := beamCoords l m fd.1 pe0 pe1 pa as0 as1
  beamCells (axisPos lw ext.1.1 ext.1.2 v.1) (axisPos mh ext.2.1 ext.2.2 v.2) fd.2.1 fd.2.2

/-- `beam_cube_dde` (fast_beam_cubes.py:58-235) for one source, time, antenna, channel and correlation; the
loops over these are independent. -/
noncomputable def beamCubeDde (lw mh nud : Nat) (beam : Int → Int → Int → ℂ) (ext : (ℝ × ℝ) × (ℝ × ℝ))
    (grid : Int → ℝ) (l m pa pe0 pe1 as0 as1 freq : ℝ) : Except PyErr ℂ :=
  if lw < 2 ∨ mh < 2 ∨ nud < 2 then .error .valueError
  else .ok (beamValue (beamRead lw mh nud ext grid l m pa pe0 pe1 as0 as1 freq) beam)

end Verif.Rime
