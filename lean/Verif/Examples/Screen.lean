/-
Model of africanus/calibration/utils/examples/apply_phase_screen_to_ms.py, in exact arithmetic.

Tables, the sky model and random numbers are inputs. The calls of dask are modelled by the numpy functions they apply to
blocks (C110 shows that they agree).
-/
import Verif.Calibration.Model2
import Mathlib.Analysis.SpecialFunctions.Pow.Real

set_option autoImplicit false

namespace Verif.Examples

open Verif.Calibration

/-- `freq.max()`; of no numbers it is a `ValueError` (calibration/utils/examples/apply_phase_screen_to_ms.py:105-127). -/
noncomputable def freqMax (nfreq : Nat) (freq : Nat → ℝ) : Except PyErr ℝ :=
  match ((List.range nfreq).map freq).max? with
  | none => .error .valueError
  | some x => .ok x

/-- `make_screen` (apply_phase_screen_to_ms.py:41-64): the gains for the random numbers `alphas`, which are indexed by time,
antenna, coefficient and correlation. -/
noncomputable def makeScreen (ntime nant nfreq ncorr : Nat) (lm : Nat → Fin 2 → ℝ) (freq : Nat → ℝ)
    (alphas : Nat → Nat → Nat → Nat → ℝ) : Except PyErr (Arr5 ℂ) :=
  match freqMax nfreq freq with
  | .error e => .error e
  | .ok top =>
    let basis : Nat → Nat → ℝ := fun d k => if k = 0 then 1 else if k = 1 then lm d 0 else lm d 1
    let freqNorm := fun nu => freq nu / top
    let phases : Arr5 ℝ :=
      forRange ntime (fun _ _ _ _ _ => 0) fun t phases =>
        forRange nant phases fun p phases =>
          forRange ncorr phases fun c phases =>
            let screen := fun d => ∑ k ∈ Finset.range 3, basis d k * alphas t p k c
            fun t' p' nu d c' => if t' = t ∧ p' = p ∧ c' = c then screen d / freqNorm nu else phases t' p' nu d c'
    .ok fun t p nu d c => Complex.exp (Complex.I * (phases t p nu d c : ℝ))

/-- What is read of a source: its flux and its spectral index and reference frequency, if it has a spectrum
(calibration/utils/examples/apply_phase_screen_to_ms.py:105-127). -/
structure ScreenSource where
  flux : ℝ
  spectrum : Option (ℝ × ℝ)

/-- `Stokes_I` (apply_phase_screen_to_ms.py:113-115, 127): sources without a spectrum have index zero at one Hertz. Powers of
negative numbers, which are NaN, are not modelled. -/
noncomputable def ScreenSource.stokesI (s : ScreenSource) (freq : ℝ) : ℝ :=
  s.flux * (freq / (s.spectrum.map Prod.snd).getD 1) ^ ((s.spectrum.map Prod.fst).getD 0)

/-- The model (apply_phase_screen_to_ms.py:82-92, 121-135), without the times along which it is repeated. -/
noncomputable def screenModel (ncorr : Nat) (sources : Nat → ScreenSource) (freq : Nat → ℝ) :
    Except PyErr (ModelVis ℂ) :=
  if ncorr = 4 then .ok <| .five fun _ nu d i j => if i = j then (((sources d).stokesI (freq nu) : ℝ) : ℂ) else 0
  else if ncorr = 2 then .ok <| .four fun _ nu d c => if c < 2 then (((sources d).stokesI (freq nu) : ℝ) : ℂ) else 0
  else if ncorr = 1 then .ok <| .four fun _ nu d c => if c = 0 then (((sources d).stokesI (freq nu) : ℝ) : ℂ) else 0
  else .error .runtimeError

/-- `simulate` (apply_phase_screen_to_ms.py:67-180): the visibilities by row, channel and correlation. `nchan` is the number
of channels of the data, `nfreq` that of the spectral window; `lm` are the coordinates of the sources. -/
noncomputable def simulate (m2pioc : ℝ) (ntime : Nat) (idx cnt ant1 ant2 : Nat → Nat) (nant nchan nfreq ndir ncorr : Nat)
    (freq : Nat → ℝ) (sources : Nat → ScreenSource) (lm : Nat → Fin 2 → ℝ) (uvw : Nat → Fin 3 → ℝ)
    (alphas : Nat → Nat → Nat → Nat → ℝ) : Except PyErr (Nat → Nat → Nat → ℂ) :=
  match screenModel ncorr sources freq with
  | .error e => .error e
  | .ok model =>
    if nfreq ≠ nchan then .error .assertionError
    else
      let jonesCorr := if ncorr = 1 then 1 else 2
      match makeScreen ntime nant nfreq jonesCorr lm freq alphas with
      | .error e => .error e
      | .ok jones =>
        match computeAndCorruptVis m2pioc ntime idx cnt ant1 ant2 nfreq ndir ncorr (.five jones) model uvw freq
            (fun _ => lm) with
        | .error e => .error e
        | .ok (.three v) => .ok v
        | .ok (.four v) => .ok fun row nu c => v row nu ⟨c / 2 % 2, by omega⟩ ⟨c % 2, by omega⟩

/-- `data[:, :, (0, 3)]` (apply_phase_screen_to_ms.py:196-198). -/
def calibrateData {K : Type} (ncorr : Nat) (data : Nat → Nat → Nat → K) : Except PyErr (Nat → Nat → Nat → K) :=
  if ncorr ≤ 3 then .error .indexError else .ok fun row nu c => data row nu (if c = 0 then 0 else 3)

end Verif.Examples
