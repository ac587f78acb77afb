/-
Model of africanus/dft/examples/predict_from_fits.py for a FITS image cube on the frequencies of the measurement set.

Numbers are exact. The interpolation of the cube to other frequencies (predict_from_fits.py:105-118, scipy) and reading and
writing of files are not modelled; `im_to_vis` is the function on whole arrays (see C94 for its dask version).
-/
import Verif.Dft.Model
import Mathlib.Data.List.Sort
import Mathlib.Analysis.SpecialFunctions.Trigonometric.Basic

set_option autoImplicit false

namespace Verif.Examples

/-- The coordinates of an axis (predict_from_fits.py:66, 74): `arange(1 - refpix, 1 + npix - refpix) * delta`. -/
noncomputable def axisCoords (npix : Nat) (refpix delta : ℝ) : List ℝ :=
  (List.range npix).map fun (i : Nat) => (1 - refpix + i) * delta

/-- `np.sort` (dft/examples/predict_from_fits.py:66, 71). -/
noncomputable def npSort (x : List ℝ) : List ℝ := by
  classical
  exact x.insertionSort (· ≤ ·)

/-- What is read of the header (predict_from_fits.py:60-94). -/
structure FitsHeader where
  cunit1 : String
  cunit2 : String
  naxis1 : Nat
  naxis2 : Nat
  crpix1 : ℝ
  crpix2 : ℝ
  cdelt1 : ℝ
  cdelt2 : ℝ
  ctype3 : String
  ctype4 : String
  naxis3 : Nat
  naxis4 : Nat

/-- The checks of the header (predict_from_fits.py:60-102). -/
def checkHeader (h : FitsHeader) : Except PyErr Unit :=
  if h.cunit1 ≠ "DEG" ∧ h.cunit1 ≠ "deg" then .error .valueError
  else if h.cunit2 ≠ "DEG" ∧ h.cunit2 ≠ "deg" then .error .valueError
  else if h.ctype4 = "FREQ" then if h.naxis3 > 1 then .error .valueError else .ok ()
  else if h.ctype3 = "FREQ" then if h.naxis4 > 1 then .error .valueError else .ok ()
  else .error .valueError

/-- `argwhere(amax(abs(model_cube), axis=0) > 0)` of the flattened image (predict_from_fits.py:127-129). -/
noncomputable def nonzeroPixels (nchan npixTot : Nat) (cube : Nat → Nat → ℝ) : List Nat := by
  classical
  exact (List.range npixTot).filter fun t => decide (∃ nu < nchan, cube nu t ≠ 0)

/-- The last axis of the visibilities (predict_from_fits.py:142-152): Stokes I to the correlations of the column. -/
noncomputable def toCorrs (dataCorr : Nat) (vis : Nat → Nat → Nat → ℂ) : Except PyErr (Nat → Nat → Nat → ℂ) :=
  if dataCorr = 1 then .ok vis
  else if dataCorr = 4 then .ok fun r nu c => if c = 0 ∨ c = 3 then vis r nu 0 else 0
  else if dataCorr = 2 then .ok fun r nu _ => vis r nu 0
  else .error .valueError

/-- The checks of lengths along the channels (predict_from_fits.py:44-51, 127, 133-140; dft/dask.py:37-39 and
`da.blockwise`). `rowAxis` says whether `CHAN_FREQ` of the dataset of one row has an axis of one row. With it,
`CHAN_FREQ.data[0]` are all frequencies, but `CHAN_FREQ.data` is an array of two dimensions where `im_to_vis` needs one.
Without it, `CHAN_FREQ.data[0]` is one frequency, and the cube must have one band, as must the frequencies. -/
def checkChannels (rowAxis : Bool) (nband nchan : Nat) : Except PyErr Unit :=
  if rowAxis then .error .valueError
  else if nband ≠ 1 then .error .valueError
  else if nchan ≠ 1 then .error .valueError
  else .ok ()

/-- predict_from_fits.py:43-152 (with the exception of lines 104-118): the visibilities that are written. The image is
`model nu m l`. A single non-zero pixel loses its axis in `squeeze`, so that `np.transpose` raises `ValueError`. -/
noncomputable def predictFromFits (rowAxis : Bool) (h : FitsHeader) (nrow nband nchan dataCorr : Nat)
    (model : Nat → Nat → Nat → ℝ) (uvw : Nat → ℝ × ℝ × ℝ) (freq : Nat → ℝ) : Except PyErr (Nat → Nat → Nat → ℂ) :=
  match checkHeader h with
  | .error e => .error e
  | .ok () =>
    let lCoord := npSort (axisCoords h.naxis1 h.crpix1 (h.cdelt1 * Real.pi / 180))
    let mCoord := axisCoords h.naxis2 h.crpix2 (h.cdelt2 * Real.pi / 180)
    let cube := fun nu t => model nu (t / h.naxis1) (t % h.naxis1)
    let idx := nonzeroPixels nband (h.naxis1 * h.naxis2) cube
    if idx.length = 1 then .error .valueError
    else match checkChannels rowAxis nband nchan with
    | .error e => .error e
    | .ok () =>
      let image : Nat → Nat → Nat → ℂ := fun s nu _ => (cube nu (idx.getD s 0) : ℂ)
      let lm := fun s => (lCoord.getD (idx.getD s 0 % h.naxis1) 0, mCoord.getD (idx.getD s 0 / h.naxis1) 0)
      match Dft.imToVis nrow idx.length nchan 1 image uvw lm freq "fourier" with
      | .error e => .error e
      | .ok vis => toCorrs dataCorr vis

end Verif.Examples
