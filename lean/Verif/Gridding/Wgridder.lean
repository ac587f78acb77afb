/-
Model of africanus/gridding/wgridder: vis2im.py, im2vis.py, im2residim.py, hessian.py and dask.py.

`dirty2ms` and `ms2dirty` of ducc0 are outside the model. They are taken to compute the sums that their documentation states, with
an arbitrary coefficient for every row, channel and pixel (the cell size, the w term and the accuracy are in the coefficient):
`dirty2ms` multiplies the visibilities by the weights, `ms2dirty` multiplies its input by the weights, and both process only the
visibilities whose mask is not zero. Arrays over rows and channels have the same extents; floating point numbers are real and
complex numbers.
-/
import Verif.Blocks
import Mathlib.Analysis.Complex.Basic

set_option autoImplicit false

namespace Verif.Wgridder

open Finset

/-- A baseline (the arguments of gridding/wgridder/dask.py:24-238). -/
abbrev UVW := ℝ × ℝ × ℝ

/-- The coefficients of ducc0 and the size of the images
(the library called in gridding/wgridder/im2vis.py:16-40 and gridding/wgridder/vis2im.py:16-51). -/
structure Wg where
  ker : UVW → ℝ → Nat → Nat → ℂ
  nx : Nat
  ny : Nat

/-- Weight of a visibility: `None` stands for one (the arguments of gridding/wgridder/dask.py:24-238). -/
def wgtAt (wgt : Option (Nat → Nat → ℝ)) (r c : Nat) : ℝ := (wgt.map fun w => w r c).getD 1

/-- Mask of a visibility: `None` stands for true (the arguments of gridding/wgridder/dask.py:24-238). -/
def maskAt (mask : Option (Nat → Nat → Bool)) (r c : Nat) : Bool := (mask.map fun m => m r c).getD true

/-- `ducc0.wgridder.dirty2ms` (called in gridding/wgridder/im2vis.py:16-40). -/
noncomputable def dirty2ms (w : Wg) (uvw : Nat → UVW) (freq : Nat → ℝ) (dirty : Nat → Nat → ℝ) (wgt : Option (Nat → Nat → ℝ))
    (mask : Option (Nat → Nat → Bool)) (r c : Nat) : ℂ :=
  if maskAt mask r c then (wgtAt wgt r c : ℂ) * ∑ x ∈ range w.nx, ∑ y ∈ range w.ny, w.ker (uvw r) (freq c) x y * (dirty x y : ℂ) else 0

/-- `ducc0.wgridder.ms2dirty`, for `nrow` rows and `nchan` channels (called in gridding/wgridder/vis2im.py:16-51). -/
noncomputable def ms2dirty (w : Wg) (nrow nchan : Nat) (uvw : Nat → UVW) (freq : Nat → ℝ) (ms : Nat → Nat → ℂ)
    (wgt : Option (Nat → Nat → ℝ)) (mask : Option (Nat → Nat → Bool)) (x y : Nat) : ℝ :=
  ∑ r ∈ range nrow, ∑ c ∈ range nchan,
    if maskAt mask r c then wgtAt wgt r c * ((starRingEnd ℂ) (w.ker (uvw r) (freq c) x y) * ms r c).re else 0

/-- `freq_bin_idx` and `freq_bin_counts`, with the size of the first (the arguments of gridding/wgridder/dask.py:24-238). -/
structure Bins where
  nband : Nat
  idx : Nat → Nat
  counts : Nat → Nat

/-- `freq_bin_idx.min()` (vis2im.py:21, im2vis.py:21, im2residim.py:22, hessian.py:22), if there is a bin. -/
def Bins.min (b : Bins) : Nat := forRange (b.nband - 1) (b.idx 0) fun i m => Min.min m (b.idx (i + 1))

/-- First channel of `ind` (vis2im.py:31 and the same lines in the other files); a slice ends with its array. -/
def Bins.start (b : Bins) (nchan i : Nat) : Nat := Min.min (b.idx i - b.min) nchan

/-- Number of channels of `ind` (the arguments of gridding/wgridder/dask.py:24-238). -/
def Bins.size (b : Bins) (nchan i : Nat) : Nat := Min.min (b.idx i - b.min + b.counts i) nchan - b.start nchan i

/-- `a[:, ind]` (the arguments of gridding/wgridder/dask.py:24-238). -/
def cols {α : Type*} (a : Nat → Nat → α) (s : Nat) : Nat → Nat → α := fun r c => a r (s + c)

/-- The data: `uvw`, `freq`, `weights` and `flag`, with the number of rows and channels
(the arguments of gridding/wgridder/dask.py:24-238). -/
structure Data where
  nrow : Nat
  nchan : Nat
  uvw : Nat → UVW
  freq : Nat → ℝ
  weights : Option (Nat → Nat → ℝ)
  flag : Option (Nat → Nat → Bool)

/-- Iteration `i` of the loop of `_dirty_internal` (vis2im.py:31-46). -/
noncomputable def dirtyBand (w : Wg) (d : Data) (b : Bins) (vis : Nat → Nat → ℂ) (i : Nat) : Nat → Nat → ℝ :=
  let s := b.start d.nchan i
  let wgt := d.weights.map fun a => cols a s
  let mask := d.flag.map fun a => cols a s
  ms2dirty w d.nrow (b.size d.nchan i) d.uvw (fun c => d.freq (s + c)) (cols vis s) wgt mask

/-- `_dirty_internal` (vis2im.py:16-48): `min` of nothing raises, and so does `vis[0, 0]` if there is none. -/
noncomputable def dirty (w : Wg) (d : Data) (b : Bins) (vis : Nat → Nat → ℂ) : Except PyErr (Nat → Nat → Nat → ℝ) :=
  if b.nband = 0 then .error .valueError
  else if d.nrow = 0 ∨ d.nchan = 0 then .error .indexError
  else .ok (forRange b.nband (fun _ _ _ => 0) fun i im => Function.update im i (dirtyBand w d b vis i))

/-- Iteration `i` of the loop of `_hessian_internal` (hessian.py:28-49). -/
noncomputable def hessianBand (w : Wg) (d : Data) (b : Bins) (image : Nat → Nat → Nat → ℝ) (i : Nat) : Nat → Nat → ℝ :=
  let s := b.start d.nchan i
  let wgt := d.weights.map fun a => cols a s
  let mask := d.flag.map fun a => cols a s
  let modelvis := dirty2ms w d.uvw (fun c => d.freq (s + c)) (image i) none mask
  ms2dirty w d.nrow (b.size d.nchan i) d.uvw (fun c => d.freq (s + c)) modelvis wgt mask

/-- `_hessian_internal` (hessian.py:16-50) for an image of `nimg` bands. -/
noncomputable def hessian (w : Wg) (d : Data) (b : Bins) (nimg : Nat) (image : Nat → Nat → Nat → ℝ) :
    Except PyErr (Nat → Nat → Nat → ℝ) :=
  if b.nband = 0 then .error .valueError
  else forRangeM b.nband (fun _ _ _ => 0) fun i im =>
    if i < nimg then .ok (Function.update im i (hessianBand w d b image i)) else .error .indexError

/-- Iteration `i` of the loop of `_residual_internal` (im2residim.py:28-50). -/
noncomputable def residualBand (w : Wg) (d : Data) (b : Bins) (image : Nat → Nat → Nat → ℝ) (vis : Nat → Nat → ℂ) (i : Nat) :
    Nat → Nat → ℝ :=
  let s := b.start d.nchan i
  let wgt := d.weights.map fun a => cols a s
  let mask := d.flag.map fun a => cols a s
  let residvis := fun r c => cols vis s r c - dirty2ms w d.uvw (fun c => d.freq (s + c)) (image i) none mask r c
  ms2dirty w d.nrow (b.size d.nchan i) d.uvw (fun c => d.freq (s + c)) residvis wgt mask

/-- `_residual_internal` (im2residim.py:16-51). -/
noncomputable def residual (w : Wg) (d : Data) (b : Bins) (nimg : Nat) (image : Nat → Nat → Nat → ℝ) (vis : Nat → Nat → ℂ) :
    Except PyErr (Nat → Nat → Nat → ℝ) :=
  if b.nband = 0 then .error .valueError
  else forRangeM b.nband (fun _ _ _ => 0) fun i im =>
    if i < nimg then .ok (Function.update im i (residualBand w d b image vis i)) else .error .indexError

/-- `vis[:, ind] = new` (im2vis.py:35). -/
def setCols (vis : Nat → Nat → ℂ) (start size : Nat) (new : Nat → Nat → ℂ) : Nat → Nat → ℂ :=
  fun r c => if start ≤ c ∧ c < start + size then new r (c - start) else vis r c

/-- Iteration `i` of the loop of `_model_internal` (im2vis.py:26-38). -/
noncomputable def modelBand (w : Wg) (d : Data) (b : Bins) (image : Nat → Nat → Nat → ℝ) (i : Nat) (vis : Nat → Nat → ℂ) :
    Nat → Nat → ℂ :=
  let s := b.start d.nchan i
  let wgt := d.weights.map fun a => cols a s
  let mask := d.flag.map fun a => cols a s
  setCols vis s (b.size d.nchan i) (dirty2ms w d.uvw (fun c => d.freq (s + c)) (image i) wgt mask)

/-- `_model_internal` (im2vis.py:16-39): the loop is over the bands of the image. -/
noncomputable def model (w : Wg) (d : Data) (b : Bins) (nimg : Nat) (image : Nat → Nat → Nat → ℝ) : Except PyErr (Nat → Nat → ℂ) :=
  if b.nband = 0 then .error .valueError
  else forRangeM nimg (fun _ _ => 0) fun i vis =>
    if i < b.nband then .ok (modelBand w d b image i vis) else .error .indexError

/-! ### dask -/

/-- Rows of chunk `j` and channels of chunk `k` (the arguments of gridding/wgridder/dask.py:24-238). -/
def Data.block (d : Data) (rowChunks chanChunks : List Nat) (j k : Nat) : Data where
  nrow := blockSize rowChunks j
  nchan := blockSize chanChunks k
  uvw := fun r => d.uvw (blockOff rowChunks j + r)
  freq := fun c => d.freq (blockOff chanChunks k + c)
  weights := d.weights.map fun a r c => a (blockOff rowChunks j + r) (blockOff chanChunks k + c)
  flag := d.flag.map fun a r c => a (blockOff rowChunks j + r) (blockOff chanChunks k + c)

/-- Bins of chunk `k` (the arguments of gridding/wgridder/dask.py:24-238). -/
def Bins.block (b : Bins) (bandChunks : List Nat) (k : Nat) : Bins where
  nband := blockSize bandChunks k
  idx := fun i => b.idx (blockOff bandChunks k + i)
  counts := fun i => b.counts (blockOff bandChunks k + i)

/-- `img.sum(axis=0)` (africanus/gridding/wgridder/dask.py:135, 190, 240) of the images of the row chunks. -/
noncomputable def sumRows (n : Nat) (im : Nat → Except PyErr (Nat → Nat → Nat → ℝ)) : Except PyErr (Nat → Nat → Nat → ℝ) :=
  forRangeM n (fun _ _ _ => 0) fun j acc => (im j).map fun a i x y => acc i x y + a i x y

/-- Chunk `k` of the bands of the dask `dirty` (africanus/gridding/wgridder/dask.py:84-135). -/
noncomputable def daskDirty (w : Wg) (d : Data) (b : Bins) (vis : Nat → Nat → ℂ) (rowChunks chanChunks bandChunks : List Nat) (k : Nat) :
    Except PyErr (Nat → Nat → Nat → ℝ) :=
  sumRows rowChunks.length fun j => dirty w (d.block rowChunks chanChunks j k) (b.block bandChunks k)
    (fun r c => vis (blockOff rowChunks j + r) (blockOff chanChunks k + c))

/-- Chunk `k` of the bands of the dask `hessian` (africanus/gridding/wgridder/dask.py:199-238); the bands of the image are chunked like the bins. -/
noncomputable def daskHessian (w : Wg) (d : Data) (b : Bins) (image : Nat → Nat → Nat → ℝ) (rowChunks chanChunks bandChunks : List Nat)
    (k : Nat) : Except PyErr (Nat → Nat → Nat → ℝ) :=
  sumRows rowChunks.length fun j => hessian w (d.block rowChunks chanChunks j k) (b.block bandChunks k) (blockSize bandChunks k)
    (fun i => image (blockOff bandChunks k + i))

/-- Chunk `k` of the bands of the dask `residual` (africanus/gridding/wgridder/dask.py:146-187). -/
noncomputable def daskResidual (w : Wg) (d : Data) (b : Bins) (image : Nat → Nat → Nat → ℝ) (vis : Nat → Nat → ℂ)
    (rowChunks chanChunks bandChunks : List Nat) (k : Nat) : Except PyErr (Nat → Nat → Nat → ℝ) :=
  sumRows rowChunks.length fun j => residual w (d.block rowChunks chanChunks j k) (b.block bandChunks k) (blockSize bandChunks k)
    (fun i => image (blockOff bandChunks k + i)) (fun r c => vis (blockOff rowChunks j + r) (blockOff chanChunks k + c))

/-- Rows of chunk `j` and channels of chunk `k` of the dask `model` (africanus/gridding/wgridder/dask.py:33-72). -/
noncomputable def daskModel (w : Wg) (d : Data) (b : Bins) (image : Nat → Nat → Nat → ℝ) (rowChunks chanChunks bandChunks : List Nat)
    (j k : Nat) : Except PyErr (Nat → Nat → ℂ) :=
  model w (d.block rowChunks chanChunks j k) (b.block bandChunks k) (blockSize bandChunks k) (fun i => image (blockOff bandChunks k + i))

end Verif.Wgridder
