/-
Model of africanus/dft/kernels.py and africanus/dft/dask.py.

Floating point numbers are real and complex numbers. Sources outside the unit disc, for which the code computes the square
root of a negative number, are outside the model: theorems assume `l^2 + m^2 <= 1`. Output types (`dtype`) are not
modelled. The assertion of vis_to_im that vis and flags have the same shape (dft/kernels.py:87) compares the shapes
`numpy.shape` assigns to two numba type objects, which are always `()`: it never fails and is not modelled.
-/
import Verif.Loops
import Verif.Rime.ModelTerms

set_option autoImplicit false

namespace Verif.Dft

open Verif.Rime (twoPiOverC)

/-- Assignment to one element of a three dimensional array (dft/kernels.py:57, 127-130). -/
def upd3 {α : Type*} (a : Nat → Nat → Nat → α) (i j k : Nat) (v : α) : Nat → Nat → Nat → α :=
  fun i' j' k' => if i' = i ∧ j' = j ∧ k' = k then v else a i' j' k'

/-- `constant` of `im_to_vis` (dft/kernels.py:28-33). -/
noncomputable def fwdConstant (convention : String) : Except PyErr ℝ :=
  if convention = "fourier" then .ok (-twoPiOverC)
  else if convention = "casa" then .ok twoPiOverC
  else .error .valueError

/-- `constant` of `vis_to_im` (dft/kernels.py:96-101). -/
noncomputable def bwdConstant (convention : String) : Except PyErr ℝ :=
  if convention = "fourier" then .ok twoPiOverC
  else if convention = "casa" then .ok (-twoPiOverC)
  else .error .valueError

/-- `real_phase` (dft/kernels.py:46-49, 107-113). -/
noncomputable def realPhase (constant : ℝ) (lm : ℝ × ℝ) (uvw : ℝ × ℝ × ℝ) : ℝ :=
  let n := Real.sqrt (1 - lm.1 ^ 2 - lm.2 ^ 2) - 1
  constant * (lm.1 * uvw.1 + lm.2 * uvw.2.1 + n * uvw.2.2)

/-- The innermost statements of `im_to_vis` (dft/kernels.py:53-57). -/
noncomputable def fwdCell (image : Nat → Nat → Nat → ℂ) (rp : ℝ) (freq : Nat → ℝ) (r s nu c : Nat)
    (out : Nat → Nat → Nat → ℂ) : Nat → Nat → Nat → ℂ :=
  let p : ℂ := (rp * freq nu : ℝ) * Complex.I
  open Classical in
  if image s nu c ≠ 0 then upd3 out r nu c (out r nu c + Complex.exp p * image s nu c) else out

/-- `im_to_vis` (dft/kernels.py:15-62). -/
noncomputable def imToVis (nrow nsrc nchan ncorr : Nat) (image : Nat → Nat → Nat → ℂ) (uvw : Nat → ℝ × ℝ × ℝ)
    (lm : Nat → ℝ × ℝ) (freq : Nat → ℝ) (convention : String) : Except PyErr (Nat → Nat → Nat → ℂ) :=
  match fwdConstant convention with
  | .error e => .error e
  | .ok constant => .ok <|
    forRange nrow (fun _ _ _ => 0) fun r out =>
      forRange nsrc out fun s out =>
        let rp := realPhase constant (lm s) (uvw r)
        forRange nchan out fun nu out =>
          forRange ncorr out fun c out => fwdCell image rp freq r s nu c out

/-- `np.any(flags[r, nu])` (dft/kernels.py:121). -/
def anyFlag (ncorr : Nat) (flags : Nat → Bool) : Bool := (List.range ncorr).any flags

/-- The loop over correlations of `vis_to_im` (dft/kernels.py:119-130). -/
noncomputable def bwdCorrs (ncorr : Nat) (vis : Nat → Nat → Nat → ℂ) (flags : Nat → Nat → Nat → Bool) (rp : ℝ)
    (freq : Nat → ℝ) (r s nu : Nat) (out : Nat → Nat → Nat → ℝ) : Nat → Nat → Nat → ℝ :=
  let p := rp * freq nu
  if anyFlag ncorr (flags r nu) then out
  else forRange ncorr out fun c out =>
    upd3 out s nu c (out s nu c + (Real.cos p * (vis r nu c).re - Real.sin p * (vis r nu c).im))

/-- `vis_to_im` (dft/kernels.py:65-132). -/
noncomputable def visToIm (nrow nsrc nchan ncorr : Nat) (vis : Nat → Nat → Nat → ℂ) (uvw : Nat → ℝ × ℝ × ℝ)
    (lm : Nat → ℝ × ℝ) (freq : Nat → ℝ) (flags : Nat → Nat → Nat → Bool) (convention : String) :
    Except PyErr (Nat → Nat → Nat → ℝ) :=
  match bwdConstant convention with
  | .error e => .error e
  | .ok constant => .ok <|
    forRange nsrc (fun _ _ _ => 0) fun s out =>
      forRange nrow out fun r out =>
        let rp := realPhase constant (lm s) (uvw r)
        forRange nchan out fun nu out => bwdCorrs ncorr vis flags rp freq r s nu out

/-! ### dask -/

/-- Offset of block `i` (the chunks of dft/dask.py:25-86). -/
def off (chunks : List Nat) (i : Nat) : Nat := (chunks.take i).sum

/-- Size of block `i` (the chunks of dft/dask.py:25-86). -/
def size (chunks : List Nat) (i : Nat) : Nat := chunks.getD i 0

/-- One block of the dask `vis_to_im` (dft/dask.py:51-56, 74-86): row block `i`, channel block `j`, correlation block `k`;
the source axis is not split here (sources are independent). -/
noncomputable def visToImBlock (rchunks fchunks cchunks : List Nat) (nsrc : Nat) (vis : Nat → Nat → Nat → ℂ)
    (uvw : Nat → ℝ × ℝ × ℝ) (lm : Nat → ℝ × ℝ) (freq : Nat → ℝ) (flags : Nat → Nat → Nat → Bool) (convention : String)
    (i j k : Nat) : Except PyErr (Nat → Nat → Nat → ℝ) :=
  visToIm (size rchunks i) nsrc (size fchunks j) (size cchunks k)
    (fun r nu c => vis (off rchunks i + r) (off fchunks j + nu) (off cchunks k + c)) (fun r => uvw (off rchunks i + r)) lm
    (fun nu => freq (off fchunks j + nu))
    (fun r nu c => flags (off rchunks i + r) (off fchunks j + nu) (off cchunks k + c)) convention

/-- Block `(j, k)` of the dask `vis_to_im` (dft/dask.py:59-86): the sum over row blocks. The comparisons of chunks
(dft/dask.py:65-75) are modelled by giving all arrays the same chunks. -/
noncomputable def daskVisToIm (rchunks fchunks cchunks : List Nat) (nsrc : Nat) (vis : Nat → Nat → Nat → ℂ)
    (uvw : Nat → ℝ × ℝ × ℝ) (lm : Nat → ℝ × ℝ) (freq : Nat → ℝ) (flags : Nat → Nat → Nat → Bool) (convention : String)
    (j k : Nat) : Except PyErr (Nat → Nat → Nat → ℝ) :=
  forRangeM rchunks.length (fun _ _ _ => 0) fun i acc =>
    match visToImBlock rchunks fchunks cchunks nsrc vis uvw lm freq flags convention i j k with
    | .error e => .error e
    | .ok b => .ok fun s nu c => acc s nu c + b s nu c

/-- Block `(i, j, k)` of the dask `im_to_vis` (dft/dask.py:25-48): the source axis is in one chunk, which the function
checks; rows, channels and correlations are split. -/
noncomputable def daskImToVis (rchunks fchunks cchunks schunks lchunks fchunks' : List Nat)
    (image : Nat → Nat → Nat → ℂ) (uvw : Nat → ℝ × ℝ × ℝ) (lm : Nat → ℝ × ℝ) (freq : Nat → ℝ) (convention : String)
    (i j k : Nat) : Except PyErr (Nat → Nat → Nat → ℂ) :=
  if lchunks.headD 0 ≠ lchunks.sum then .error .valueError
  else if schunks.headD 0 ≠ schunks.sum then .error .valueError
  else if schunks.headD 0 ≠ lchunks.headD 0 then .error .valueError
  else if fchunks' ≠ fchunks then .error .valueError
  else imToVis (size rchunks i) (lchunks.headD 0) (size fchunks j) (size cchunks k)
    (fun s nu c => image s (off fchunks j + nu) (off cchunks k + c)) (fun r => uvw (off rchunks i + r)) lm
    (fun nu => freq (off fchunks j + nu)) convention

end Verif.Dft
