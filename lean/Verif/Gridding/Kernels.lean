/-
Model of africanus/gridding/perleypolyhedron/kernels.py. Floating point numbers are real and complex numbers; the fast Fourier
transform is the discrete Fourier transform it computes; `jn` and the two fitted polynomials that choose default shape
parameters are parameters.
-/
import Verif.Loops
import Mathlib.Analysis.SpecialFunctions.Trigonometric.Basic
import Mathlib.Analysis.Real.Sqrt

set_option autoImplicit false

namespace Verif.Gridding

/-! ## Sampling and windows -/

/-- `uspace` (kernels.py:16-35). -/
noncomputable def uspace (W os : Nat) : Except PyErr (Nat → ℝ) :=
  if W % 2 = 1 then .ok fun k => (k : ℝ) / os - ((W + 2) / 2 : Nat) else .error .assertionError

/-- `res / np.sum(res)` (kernels.py:44, 67, 84). -/
noncomputable def normalise (n : Nat) (f : Nat → ℝ) : Nat → ℝ := fun i => f i / ∑ j ∈ Finset.range n, f j

/-- `np.sinc` (gridding/perleypolyhedron/kernels.py:43). -/
noncomputable def npSinc (x : ℝ) : ℝ := if x = 0 then 1 else Real.sin (Real.pi * x) / (Real.pi * x)

/-- `sinc` (kernels.py:38-44). -/
noncomputable def sinc (W os : Nat) (a : ℝ) : Except PyErr (Nat → ℝ) :=
  match uspace W os with
  | .error e => .error e
  | .ok u => .ok (normalise (os * (W + 2)) fun k => npSinc (u k * a))

/-- The argument of the square root of `kbsinc` (kernels.py:64-65). -/
noncomputable def kbRadicand (W : Nat) (u : ℝ) : ℝ := 1 - (2 * u / ((W + 2 : Nat) + 1)) ^ 2

/-- `kbsinc` (kernels.py:52-67); `jn` is the Bessel function, `auto` the fitted polynomial. -/
noncomputable def kbsinc (jn : Nat → ℝ → ℝ) (auto : Nat → ℝ) (W : Nat) (b : Option ℝ) (os order : Nat) : Except PyErr (Nat → ℝ) :=
  let b := match b with
    | none => auto (W + 2)
    | some b => b
  match uspace W os with
  | .error e => .error e
  | .ok u =>
    let wnd : Nat → ℝ := fun k => jn order (b * Real.sqrt (kbRadicand W (u k))) * 1 / ((W + 2 : Nat) + 1)
    match sinc W os 1 with
    | .error e => .error e
    | .ok s => .ok (normalise (os * (W + 2)) fun k => s k * wnd k * ∑ j ∈ Finset.range (os * (W + 2)), wnd j)

/-- `hanningsinc` (kernels.py:75-84). -/
noncomputable def hanningsinc (auto : Nat → ℝ) (W : Nat) (a : Option ℝ) (os : Nat) : Except PyErr (Nat → ℝ) :=
  let a := match a with
    | none => auto (W + 2)
    | some a => a
  match uspace W os with
  | .error e => .error e
  | .ok u =>
    let wnd : Nat → ℝ := fun k => a + (1 - a) * Real.cos (2 * Real.pi / ((W + 2 : Nat) + 1) * u k)
    match sinc W os 1 with
    | .error e => .error e
    | .ok s => .ok (normalise (os * (W + 2)) fun k => s k * wnd k)

/-! ## Packing -/

variable {α : Type*}

/-- Length of the slice `K[t::os]` of an array of `len` elements (gridding/perleypolyhedron/kernels.py:87-100, 103-116). -/
def strideLen (len t os : Nat) : Nat := (len - t + (os - 1)) / os

/-- Length of the slice `K[lo:hi]` of an array of `len` elements (gridding/perleypolyhedron/kernels.py:87-100, 103-116). -/
def sliceLen (len lo hi : Nat) : Nat := min len hi - min len lo

/-- Element `j` of a source of `n` elements assigned to `m` elements: a single element is repeated
(gridding/perleypolyhedron/kernels.py:87-100, 103-116). -/
def bcast (n m : Nat) (src : Nat → α) : Except PyErr (Nat → α) :=
  if n = m then .ok src else if n = 1 then .ok fun _ => src 0 else .error .valueError

/-- One iteration of `pack_kernel` (kernels.py:99). -/
def packStep (len : Nat) (K : Nat → α) (W os t : Nat) (p : Nat → α) : Except PyErr (Nat → α) :=
  match bcast (strideLen len t os) (W + 2) fun j => K (t + j * os) with
  | .error e => .error e
  | .ok src => .ok fun i => if t * (W + 2) ≤ i ∧ i < (t + 1) * (W + 2) then src (i - t * (W + 2)) else p i

/-- `pack_kernel` (kernels.py:87-100); `undef` stands for the contents of `np.empty`. -/
def packKernel (undef : Nat → α) (len : Nat) (K : Nat → α) (W os : Nat) : Except PyErr (Nat → α) :=
  forRangeM os undef fun t p => packStep len K W os t p

/-- One iteration of `unpack_kernel` (kernels.py:115). -/
def unpackStep (len : Nat) (K : Nat → α) (W os t : Nat) (p : Nat → α) : Except PyErr (Nat → α) :=
  match bcast (sliceLen len (t * (W + 2)) ((t + 1) * (W + 2))) (W + 2) fun j => K (t * (W + 2) + j) with
  | .error e => .error e
  | .ok src => .ok fun i => if i % os = t ∧ i < os * (W + 2) then src (i / os) else p i

/-- `unpack_kernel` (kernels.py:103-116). -/
def unpackKernel (undef : Nat → α) (len : Nat) (K : Nat → α) (W os : Nat) : Except PyErr (Nat → α) :=
  forRangeM os undef fun t p => unpackStep len K W os t p

/-! ## Detapering functions -/

/-- `np.exp(-2.0j * np.pi * x)` (gridding/perleypolyhedron/kernels.py:137-159, 162-183). -/
noncomputable def cis (x : ℝ) : ℂ := Complex.exp (-(2 * Real.pi * x : ℝ) * Complex.I)

/-- `pk` of `compute_detaper` (kernels.py:125-129): the kernel of `s` by `s` samples in the centre of `N` by `N` zeros. The code
raises when the kernel is larger than the array. -/
noncomputable def padded (N s : Nat) (K : Nat → Nat → ℝ) (i j : Nat) : ℝ :=
  if N / 2 - s / 2 ≤ i ∧ i < N / 2 - s / 2 + s ∧ N / 2 - s / 2 ≤ j ∧ j < N / 2 - s / 2 + s then
    K (i - (N / 2 - s / 2)) (j - (N / 2 - s / 2)) else 0

/-- `np.fft.ifftshift`, one axis (gridding/perleypolyhedron/kernels.py:130). -/
def ifftIdx (N i : Nat) : Nat := (i + N / 2) % N

/-- `np.fft.fftshift`, one axis (gridding/perleypolyhedron/kernels.py:130). -/
def fftIdx (N i : Nat) : Nat := (i + (N - N / 2)) % N

/-- `np.fft.fft2` of an `N` by `N` array (gridding/perleypolyhedron/kernels.py:130). -/
noncomputable def fft2 (N : Nat) (x : Nat → Nat → ℝ) (k l : Nat) : ℂ :=
  ∑ a ∈ Finset.range N, ∑ b ∈ Finset.range N, (x a b : ℂ) * cis (((k : ℝ) * a + (l : ℝ) * b) / N)

/-- `compute_detaper` (kernels.py:119-134) for a square kernel of `s` by `s` samples. -/
noncomputable def computeDetaper (npix s : Nat) (K : Nat → Nat → ℝ) (os : Nat) : Except PyErr (Nat → Nat → ℝ) :=
  let N := npix * os
  if s ≤ N then
    let fpk := fun i j => fft2 N (fun a b => padded N s K (ifftIdx N a) (ifftIdx N b)) (fftIdx N i) (fftIdx N j)
    .ok fun i j => ‖fpk (N / 2 - npix / 2 + i) (N / 2 - npix / 2 + j)‖
  else .error .valueError

/-- The loop over the kernel of `compute_detaper_dft` (kernels.py:154-158) at pixel (`mm`, `ll`); the kernel has `s0` rows and
`s1` columns. -/
noncomputable def detaperPixel (npix s0 s1 : Nat) (K : Nat → Nat → ℝ) (u : Nat → ℝ) (mm ll : Nat) (init : ℂ) : ℂ :=
  let llN : ℝ := ((ll : ℝ) - (npix / 2 : Nat)) / npix
  let mmN : ℝ := ((mm : ℝ) - (npix / 2 : Nat)) / npix
  forRange (s0 * s1) init fun x acc =>
    acc + (K (x / s1) (x % s1) : ℂ) * cis (llN * u (x % s1) + mmN * u (x / s1))

/-- `compute_detaper_dft` (kernels.py:137-159). The parallel loop over pixels is sequential here; every iteration has its own
pixel. -/
noncomputable def computeDetaperDft (npix s0 s1 : Nat) (K : Nat → Nat → ℝ) (W os : Nat) : Except PyErr (Nat → Nat → ℝ) :=
  match uspace W os with
  | .error e => .error e
  | .ok u =>
    let pk : Nat → Nat → ℂ := forRange (npix * npix) (fun _ _ => 0) fun p pk =>
      let ll := p % npix
      let mm := p / npix
      fun i j => if i = mm ∧ j = ll then detaperPixel npix s0 s1 K u mm ll (pk mm ll) else pk i j
    .ok fun i j => ‖pk i j‖

/-- `compute_detaper_dft_seperable` (kernels.py:162-183) for a kernel of `s` samples. -/
noncomputable def computeDetaperSep (npix s : Nat) (K : Nat → ℝ) (W os : Nat) : Except PyErr (Nat → Nat → ℝ) :=
  match uspace W os with
  | .error e => .error e
  | .ok u =>
    let pkX : Nat → ℂ := forRange npix (fun _ => 0) fun ll pk =>
      forRange s pk fun x pk =>
        Function.update pk ll (pk ll + (K x : ℂ) * cis (((ll : ℝ) - (npix / 2 : Nat)) / npix * u x))
    .ok fun i j => ‖pkX i * pkX j‖

end Verif.Gridding
