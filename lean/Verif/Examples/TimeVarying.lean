/-
Model of africanus/calibration/utils/examples/apply_gains_time_varying_sources.py. Simplified: the table has one field and
one spectral window; the gains have as many times, antennas and channels as the table; powers are real powers.
-/
import Verif.Examples.ApplyGains
import Verif.Coordinates.Model
import Mathlib.Analysis.SpecialFunctions.Pow.Real

set_option autoImplicit false

namespace Verif.Examples

open Verif.Calibration Verif.Coordinates

/-- What is read of a source of the sky model (apply_gains_time_varying_sources.py:75-79). -/
structure LsmSource where
  ra : ℝ
  dec : ℝ
  flux : ℝ
  spi : ℝ
  freq0 : ℝ

/-- A source that does not exist (calibration/utils/examples/apply_gains_time_varying_sources.py:68-80). -/
def LsmSource.none : LsmSource := ⟨0, 0, 0, 0, 1⟩

/-- The coordinates `lm` (apply_gains_time_varying_sources.py:82-85), the same for every time as the phase centre is
repeated for every time (apply_gains_time_varying_sources.py:58-59). Without sources the array of coordinates has one axis
and its shape cannot be unpacked (coordinates/coordinates.py:85). -/
noncomputable def lsmCoords (radec0 : ℝ × ℝ) (sources : List LsmSource) : Except PyErr (Nat → Nat → Fin 2 → ℝ) :=
  if sources = [] then .error .valueError
  else
    match radecToLm 2 (fun s => ((sources.getD s .none).ra, (sources.getD s .none).dec)) (some radec0) with
    | .error e => .error e
    | .ok lm => .ok fun _ s c => if c = 0 then (lm s).1 else (lm s).2

/-- The spectra `model` (apply_gains_time_varying_sources.py:89-97), with one correlation. -/
noncomputable def lsmModel (freq : Nat → ℝ) (sources : List LsmSource) : Nat → Nat → Nat → Nat → ℂ := fun _ nu d _ =>
  (((sources.getD d .none).flux * (freq nu / (sources.getD d .none).freq0) ^ (sources.getD d .none).spi : ℝ) : ℂ)

/-- `main` (apply_gains_time_varying_sources.py:44-133): the array written to the table. -/
noncomputable def timeVarying {α : Type} [LinearOrder α] (m2pioc : ℝ) (time : List α) (u : Nat) (ant1 ant2 : Nat → Nat)
    (nchan nant jdir : Nat) (radec0 : ℝ × ℝ) (sources : List LsmSource) (freq : Nat → ℝ) (jones : Jones ℂ)
    (uvw : Nat → Fin 3 → ℝ) : Except PyErr (DaskVis ℂ) :=
  match chunkifyRows time u with
  | .error e => .error e
  | .ok out =>
    match lsmCoords radec0 sources with
    | .error e => .error e
    | .ok lm =>
      daskComputeAndCorruptVis m2pioc (regularChunks out.timeBinIndices.length u) out.rowChunks [nchan] [1] [nant] [jdir]
        [sources.length] [3] [sources.length] [2] (fun t => out.timeBinIndices.getD t 0)
        (fun t => out.timeBinCounts.getD t 0) ant1 ant2 jones (.four (lsmModel freq sources)) uvw freq lm

end Verif.Examples
