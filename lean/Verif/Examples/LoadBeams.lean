/-
Model of `load_beams` of africanus/rime/examples/predict.py.

What astropy returns for a file (its header without `DATE`, and its data with the axes of numpy) is input. Delayed
evaluation by dask is not modelled: reading the files has no effects on their contents.
-/
import Verif.Util.Beams
import Mathlib.Data.Complex.Basic

set_option autoImplicit false

namespace Verif.Examples

open Verif.Util.Beams

/-- A header: the keys read by `beam_grids`, and `BITPIX` (rime/examples/predict.py:190-236). -/
structure BeamHeader where
  keys : Header
  bitpix : Int

/-- A file: its header and `hdul[0].data` (rime/examples/predict.py:190-236). -/
structure BeamFile where
  header : BeamHeader
  data : Nat → Nat → Nat → ℝ

/-- The position at which an axis of the data appears in a transposition (rime/examples/predict.py:190-236). -/
def axisIndex (ax : Nat × Nat × Nat) (i j k : Nat) (a : Nat) : Nat :=
  if ax.1 = a then i else if ax.2.1 = a then j else k

/-- `data.transpose(ax)`; `ax` is a permutation of 0, 1 and 2, otherwise numpy raises `ValueError` (rime/examples/predict.py:190-236). -/
def transpose3 {K : Type} (ax : Nat × Nat × Nat) (data : Nat → Nat → Nat → K) (i j k : Nat) : K :=
  data (axisIndex ax i j k 0) (axisIndex ax i j k 1) (axisIndex ax i j k 2)

/-- The result of `load_beams`: declared shape, beam by l, m, channel and correlation, extents and frequencies
(rime/examples/predict.py:190-236). -/
structure LoadedBeam where
  shape : Nat × Nat × Nat × Nat
  beam : Nat → Nat → Nat → Nat → ℂ
  lmExt : (ℝ × ℝ) × (ℝ × ℝ)
  freqs : Nat → ℝ

open Classical in
/-- `load_beams` (rime/examples/predict.py:144-230) for the pairs of files of the correlations, in the order of the
correlations. Without files there is no first header (`IndexError`). -/
noncomputable def loadBeams (files : List (BeamFile × BeamFile)) (lAxis mAxis : List Char) : Except PyErr LoadedBeam :=
  match files.flatMap fun f => [f.1.header, f.2.header] with
  | [] => .error .indexError
  | header :: rest =>
    if ¬ ∀ h ∈ rest, header = h then .error .valueError
    else if header.bitpix ∉ [8, 16, 32, -32, -64] then .error .valueError
    else match header.keys.naxis with
      | none => .error .keyError
      | some n =>
        if n ≠ 3 then .error .valueError
        else match beamGrids header.keys (some lAxis) (some mAxis) with
          | .error e => .error e
          | .ok ((lAx, nl, lGrid), (mAx, nm, mGrid), (nuAx, nnu, nuGrid)) =>
            let ax := (nuAx - 1, mAx - 1, lAx - 1)
            if nl = 0 ∨ nm = 0 then .error .indexError
            else .ok {
              shape := (nl, nm, nnu, files.length)
              beam := fun i j k c => match files[c]? with
                | none => 0
                | some (re, im) => ((transpose3 ax re.data i j k : ℝ) : ℂ) + ((transpose3 ax im.data i j k : ℝ) : ℂ) * Complex.I
              lmExt := ((lGrid 0, lGrid (nl - 1)), (mGrid 0, mGrid (nm - 1)))
              freqs := nuGrid }

end Verif.Examples
