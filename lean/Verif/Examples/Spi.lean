/-
Model of africanus/model/spi/examples/simple_spi_fitter.py: the restoring beam, the convolution of the model cube with it,
the pixels that are fitted and the maps made of the fits.

Numbers are exact real numbers. `pypocketfft`, `numpy.fft` and `scipy.fftpack` are external: Fourier transforms are
modelled by the sums that they document, `next_fast_len` by a function that returns at least its argument.
-/
import Verif.Basic
import Mathlib.Analysis.SpecialFunctions.Trigonometric.Basic
import Mathlib.Analysis.SpecialFunctions.Log.Basic
import Mathlib.Analysis.Real.Sqrt
import Mathlib.Algebra.Order.Floor.Semiring

set_option autoImplicit false

namespace Verif.Examples

open Finset

/-! ### Gaussian2D -/

/-- The quadratic form of `Gaussian2D` at a point (simple_spi_fitter.py:45-55, 65): `x^T R^T diag(1/SMaj^2, 1/SMin^2) R x`
with the rotation by `90 + PA`, which `np.cos` and `np.sin` take in radians. -/
noncomputable def gaussForm (s0 s1 pa x y : ℝ) : ℝ :=
  let smaj := max s0 s1
  let smin := min s0 s1
  let t := 90 + pa
  (Real.cos t * x - Real.sin t * y) ^ 2 / smaj ^ 2 + (Real.sin t * x + Real.cos t * y) ^ 2 / smin ^ 2

/-- The pixels of an image for which the kernel is computed (simple_spi_fitter.py:58-61): `argwhere`, in row order. -/
noncomputable def gaussPixels (rows cols : Nat) (xin yin : Nat → Nat → ℝ) (smaj : ℝ) : List (Nat × Nat) := by
  classical
  exact ((List.range rows).flatMap fun i => (List.range cols).map fun j => (i, j)).filter fun p =>
    decide (xin p.1 p.2 ^ 2 + yin p.1 p.2 ^ 2 ≤ (5 * smaj) ^ 2)

/-- `Gaussian2D` (simple_spi_fitter.py:44-72). An image with one row or one column loses that axis in `squeeze`, and a
list of one pixel loses its first axis: both make `ind[:, 0]` or `ind[:, 1]` an `IndexError`. -/
noncomputable def gaussian2D (rows cols : Nat) (xin yin : Nat → Nat → ℝ) (s0 s1 pa : ℝ) :
    Except PyErr (Nat → Nat → ℝ) := by
  classical
  exact
    let smaj := max s0 s1
    let ind := gaussPixels rows cols xin yin smaj
    if rows = 1 ∨ cols = 1 then .error .indexError
    else if ind.length = 1 then .error .indexError
    else
      let fwhmConv := 2 * Real.sqrt (2 * Real.log 2)
      .ok fun i j => if (i, j) ∈ ind then Real.exp (-fwhmConv * gaussForm s0 s1 pa (xin i j) (yin i j)) else 0

/-! ### Fourier transforms -/

/-- `exp(2 pi i a / n)` (model/spi/examples/simple_spi_fitter.py:12-41). -/
noncomputable def root (n : Nat) (a : ℤ) : ℂ := Complex.exp (2 * Real.pi * Complex.I * a / n)

/-- `rfftn` over two axes (simple_spi_fitter.py:20-22, 37-38; external): the frequencies of the last axis up to the
half of its length are kept, of the values of this function only those with `l ≤ n2 / 2` are used. -/
noncomputable def rfft2 (n1 n2 : Nat) (x : Nat → Nat → ℝ) : Nat → Nat → ℂ := fun k l =>
  ∑ i ∈ range n1, ∑ j ∈ range n2, (x i j : ℂ) * root n1 (-(k * i)) * root n2 (-(l * j))

/-- `irfftn` over two axes with a last axis of `size` numbers (simple_spi_fitter.py:24-26, 40-41; external): a complex
inverse transform of the first axis and a real one of the last, whose missing half is the complex conjugate of the given
one. -/
noncomputable def irfft2 (n1 size : Nat) (y : Nat → Nat → ℂ) : Nat → Nat → ℝ := fun i j =>
  let z := fun l => (∑ k ∈ range n1, y k l * root n1 (k * i)) / n1
  ((∑ l ∈ range size, (if l ≤ size / 2 then z l else starRingEnd ℂ (z (size - l))) * root size (l * j)) / size).re

/-- `np.fft.ifftshift` along one axis of `n` (model/spi/examples/simple_spi_fitter.py:12-41). -/
def iFs (n : Nat) (i : Nat) : Nat := (i + n / 2) % n

/-- `np.fft.fftshift` along one axis of `n` (model/spi/examples/simple_spi_fitter.py:12-41). -/
def fs (n : Nat) (i : Nat) : Nat := (i + (n - n / 2)) % n

/-- `np.pad` with zeros of an image of `n1 x n2` (simple_spi_fitter.py:105, 109). -/
noncomputable def pad (n1 n2 left1 left2 : Nat) (x : Nat → Nat → ℝ) : Nat → Nat → ℝ := fun i j =>
  if left1 ≤ i ∧ i < left1 + n1 ∧ left2 ≤ j ∧ j < left2 + n2 then x (i - left1) (j - left2) else 0

/-! ### convolve_model -/

/-- The padding of an axis (simple_spi_fitter.py:79-100): left and right. `fast` is `next_fast_len`, or `none` if scipy
is missing. -/
noncomputable def padding (fast : Option (Nat → Nat)) (paddingFrac : ℝ) (npix : Nat) : Nat × Nat :=
  let npad := ⌊paddingFrac / 2 * npix⌋₊
  match fast with
  | none => (npad, npad)
  | some nextFastLen =>
    let nfft := nextFastLen (npix + 2 * npad)
    let left := (nfft - npix) / 2
    (left, nfft - npix - left)

/-- The length of `x[slice(left, -right)]` for an axis of `n`: `-0` is `0` (model/spi/examples/simple_spi_fitter.py:82-112). -/
def slicedLength (n left right : Nat) : Nat := (if right = 0 then 0 else n - right) - left

/-- `convolve_model` (simple_spi_fitter.py:75-113) for one band: the shape of the result and its values.
`pocketfft` says whether pypocketfft is installed; otherwise `irfftn` does not know the length of the last axis and takes
it to be even. -/
noncomputable def convolveModel (pocketfft : Bool) (fast : Option (Nat → Nat)) (paddingFrac : ℝ) (npixL npixM : Nat)
    (model gausskern : Nat → Nat → ℝ) : (Nat × Nat) × (Nat → Nat → ℝ) :=
  let (ll, lr) := padding fast paddingFrac npixL
  let (ml, mr) := padding fast paddingFrac npixM
  let n1 := npixL + ll + lr
  let n2 := npixM + ml + mr
  let shifted := fun (x : Nat → Nat → ℝ) i j => pad npixL npixM ll ml x (iFs n1 i) (iFs n2 j)
  let gausskernhat := rfft2 n1 n2 (shifted gausskern)
  let modelhat := rfft2 n1 n2 (shifted model)
  let size := if pocketfft then n2 else 2 * (n2 / 2)
  let conv := irfft2 n1 size fun k l => modelhat k l * gausskernhat k l
  ((slicedLength n1 ll lr, slicedLength size ml mr), fun i j => conv (fs n1 (ll + i)) (fs size (ml + j)))

/-! ### Pixels and maps -/

/-- `argwhere(amin(model, axis=0) > threshold)` (simple_spi_fitter.py:343-348), in row order; no pixel is a
`ValueError`. There is at least one band. -/
noncomputable def maskIndices (nband rows cols : Nat) (model : Nat → Nat → Nat → ℝ) (threshold : ℝ) :
    Except PyErr (List (Nat × Nat)) := by
  classical
  exact
    let ind := ((List.range rows).flatMap fun i => (List.range cols).map fun j => (i, j)).filter fun p =>
      decide (∀ b < nband, threshold < model b p.1 p.2)
    if ind = [] then .error .valueError else .ok ind

/-- `map = zeros(shape); map[ind[:, 0], ind[:, 1]] = values` (simple_spi_fitter.py:380-383): assignments in order; a pixel
outside the shape is an `IndexError`. The shape is `(npix_l, npix_m)` although rows of the model are m. -/
def mapOf (npixL npixM : Nat) (ind : List (Nat × Nat)) (values : Nat → ℝ) : Except PyErr (Nat → Nat → ℝ) :=
  if ∀ p ∈ ind, p.1 < npixL ∧ p.2 < npixM then
    .ok (ind.zipIdx.foldl (fun acc e => fun i j => if (i, j) = e.1 then values e.2 else acc i j) fun _ _ => 0)
  else .error .indexError

/-- The chunks of components (simple_spi_fitter.py:369-371): `ncomps // ncpu`. dask divides by the chunk size: zero is an
error. -/
def componentChunks (ncomps ncpu : Nat) : Except PyErr Nat :=
  if ncpu = 0 then .error .zeroDivisionError
  else if ncomps / ncpu = 0 then .error .zeroDivisionError
  else .ok (ncomps / ncpu)

/-- The prefix of the names of output files (simple_spi_fitter.py:386-395). -/
def outPrefix (outfile : Option (List Char)) (fitsmodel : List Char) : List Char :=
  match outfile with
  | some o => o
  | none => match fitsmodel.reverse.findIdx? (· = '/') with
    | some idx => if idx = 0 then [] else fitsmodel.take (fitsmodel.length - idx)
    | none => "image-".toList

end Verif.Examples
