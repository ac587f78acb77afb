/-
Model of africanus/testing/beam_factory.py.

The numbers drawn by `np.random.random` are a parameter. Writing the files is not modelled: every file gets the same header
and the same beam. Numbers are real.
-/
import Verif.Util.Beams

set_option autoImplicit false

noncomputable section

namespace Verif.Util.Beams

open Verif.Util

/-- `np.linspace(a, b, n, endpoint=True)` (beam_factory.py:49-55, 67), point `i`. -/
def linspace (a b : ℝ) (n i : Nat) : ℝ := if n = 1 then a else a + i * ((b - a) / ((n : ℝ) - 1))

/-- What `polarisation_type` can be compared with (beam_factory.py:59-64). -/
inductive PolType
  | linear | circular | other

/-- `LINEAR_CORRELATIONS` and `CIRCULAR_CORRELATIONS` (beam_factory.py:20-21). -/
def PolType.corrs : PolType → Option (List Int)
  | .linear => some [9, 10, 11, 12]
  | .circular => some [5, 6, 7, 8]
  | .other => none

/-- `BITPIX_MAP` (beam_factory.py:24-33); types are given by their names. -/
def bitpixMap : List (String × Int) :=
  [("int8", 8), ("uint8", 8), ("int16", 16), ("uint16", 16), ("int32", 32), ("uint32", 32), ("float32", -32), ("float64", -64)]

/-- The default frequencies (beam_factory.py:48-50). -/
def defaultFrequency : List ℝ := (List.range 64).map (linspace 0.856e9 (0.856e9 * 2) 64)

/-- The step of the frequency axis (beam_factory.py:55-56): `bandwidth / gfrequency.shape[0]-1`. Division binds stronger than
subtraction. -/
def bandwidthDelta (f0 f1 : ℝ) : ℝ := (linspace f0 f1 33 32 - f0) / 33 - 1

/-- The grid frequencies with their jitter (beam_factory.py:52-53, 134-137); `rnd` are the random numbers. -/
def gfrequency (f0 f1 : ℝ) (rnd : Nat → ℝ) (i : Nat) : ℝ :=
  linspace f0 f1 33 i + if i = 0 ∨ i = 32 then 0 else (rnd i - 0.5) * (0.1 * bandwidthDelta f0 f1)

/-- `coords` in degrees (beam_factory.py:66-67). -/
def coordsDeg (npix i : Nat) : ℝ := linspace (-(3.0 / 2)) (3.0 / 2) npix i

/-- The keys of the first two axes (beam_factory.py:69-97). -/
def skyAxis (ctype : List Char) (npix : Nat) : AxisKeys where
  naxis := some npix
  ctype := some ctype
  crval := some (coordsDeg npix (1 + npix / 2 - 1))
  crpix := some ((1 + npix / 2 : Nat) : ℝ)
  cdelt := some (3.0 / ((npix : ℝ) - 1))
  cunit := some "DEG".toList

/-- The keys of the frequency axis (beam_factory.py:99-105); a key whose value is `None` is not written (lines 125-128). -/
def freqAxis (f0 f1 : ℝ) : AxisKeys where
  naxis := some 33
  ctype := some "FREQ".toList
  crval := some (linspace f0 f1 33 0)
  crpix := some 1
  cdelt := some (bandwidthDelta f0 f1)
  cunit := none

/-- The header (beam_factory.py:107-143). -/
def factoryHeader (npix : Nat) (f0 f1 : ℝ) (rnd : Nat → ℝ) : Header where
  naxis := some 3
  axis := fun n => if n = 1 then skyAxis "X".toList npix else if n = 2 then skyAxis "Y".toList npix
    else if n = 3 then freqAxis f0 f1 else ⟨none, none, none, none, none, none⟩
  irregular := fun name j => if name = "FREQ".toList ∧ 1 ≤ j ∧ j ≤ 33 then some (gfrequency f0 f1 rnd (j - 1)) else none

/-- The beam (beam_factory.py:148-152): channel, row, column. -/
def factoryBeam (npix : Nat) (f0 f1 : ℝ) (rnd : Nat → ℝ) (ch i j : Nat) : ℝ :=
  let r := Real.sqrt (deg2rad (coordsDeg npix i) ^ 2 + deg2rad (coordsDeg npix j) ^ 2)
  Real.cos (min (65 * gfrequency f0 f1 rnd ch * 1e-9 * r) 1.0881) ^ 3

/-- `beam_factory` (beam_factory.py:36-154): the header and the beam written to the files, and the file names. The errors come in
the order of the code: an even `npix`, no frequencies, the polarisation type, one pixel (`extent_deg / 0`), the element
type, frequencies that decrease, the schema. -/
def beamFactory (pol : PolType) (frequency : Option (List ℝ)) (npix : Nat) (dtype : String) (schema : List Char)
    (rnd : Nat → ℝ) : Except PyErr (Header × (Nat → Nat → Nat → ℝ) × List (List Char × List (List Char))) :=
  if npix % 2 ≠ 1 then .error .valueError
  else
    let frequency := frequency.getD defaultFrequency
    match frequency.head?, frequency.getLast? with
    | some f0, some f1 =>
      match pol.corrs with
      | none => .error .valueError
      | some corr =>
        if npix = 1 then .error .zeroDivisionError
        else if (bitpixMap.lookup dtype).isNone then .error .keyError
        else
          open Classical in
          if ∀ i < 32, 0 ≤ gfrequency f0 f1 rnd (i + 1) - gfrequency f0 f1 rnd i then
            match beamFilenames schema corr with
            | .error e => .error e
            | .ok files => .ok (factoryHeader npix f0 f1 rnd, factoryBeam npix f0 f1 rnd, files)
          else .error .assertionError
    | _, _ => .error .indexError

end Verif.Util.Beams
