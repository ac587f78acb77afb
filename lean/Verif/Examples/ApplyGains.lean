/-
Model of africanus/calibration/utils/examples/apply_gains_to_ms.py. Simplified: the table has one field and one spectral
window, so that the data set read is the whole table; the conversion of the gains to `complex64` is exact; the gains have
as many times, antennas and channels as the table.
-/
import Verif.Calibration.Dask

set_option autoImplicit false

namespace Verif.Examples

open Verif.Calibration

/-- The chunks of an axis of `n` elements for a chunk size `c` (`da.from_array(x, chunks=c)` and `x.rechunk({axis: c})`)
(calibration/utils/examples/apply_gains_to_ms.py:62-63, 82). -/
def regularChunks (n c : Nat) : List Nat :=
  if n = 0 then [0] else List.replicate (n / c) c ++ if n % c = 0 then [] else [n % c]

/-- `da.stack(model, axis=2)` and `model.reshape(n_row, n_chan, n_dir, 2, 2)` (apply_gains_to_ms.py:91-102) for the
columns of the model, each indexed by row, channel and correlation. A shape other than four correlations cannot be
reshaped. -/
def stackModel {K : Type*} [Zero K] (ncorr : Nat) (cols : List (Nat → Nat → Nat → K)) : Except PyErr (ModelVis K) :=
  let model : Nat → Nat → Nat → Nat → K := fun r nu s c => (cols.getD s fun _ _ _ => 0) r nu c
  if 2 < ncorr then
    if ncorr = 4 then .ok (.five fun r nu s => Matrix.of fun a b => model r nu s (2 * a.val + b.val)) else .error .valueError
  else .ok (.four model)

/-- `corrupted_data.reshape(n_row, n_chan, n_corr)` (apply_gains_to_ms.py:108-109) for one block. -/
def flattenVis {K : Type*} (v : Vis K) : Vis K :=
  match v with
  | .three v => .three v
  | .four v => .three fun r nu c => v r nu (Fin.ofNat 2 (c / 2)) (Fin.ofNat 2 c)

/-- The program (apply_gains_to_ms.py:58-114): the array written to the table. `jdir` and `nant` are the extents of the
gains, in one chunk each (apply_gains_to_ms.py:82-83); the channels are in one chunk, as `xds_from_ms` is only given the
row chunks (apply_gains_to_ms.py:86). -/
def applyGains {α K : Type} [LinearOrder α] [Field K] [StarRing K] (time : List α) (u : Nat) (ant1 ant2 : Nat → Nat)
    (nchan nant jdir ncorr : Nat) (jones : Jones K) (cols : List (Nat → Nat → Nat → K)) : Except PyErr (DaskVis K) := do
  let out ← chunkifyRows time u
  let model ← stackModel ncorr cols
  let corrs := if 2 < ncorr then [2] else [ncorr]
  let d ← daskCorruptVis (regularChunks out.timeBinIndices.length u) out.rowChunks [nchan] corrs [nant] [jdir]
    (regularChunks cols.length 3) (fun t => out.timeBinIndices.getD t 0) (fun t => out.timeBinCounts.getD t 0) ant1 ant2
    jones model
  if 2 < ncorr then
    return { d with corrChunks := [ncorr], block := fun i k l => (d.block i k l).map flattenVis }
  else return d

end Verif.Examples
