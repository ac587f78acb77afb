/-
Model of africanus/calibration/utils (numpy/numba kernels) and calibration/phase_only.

Arrays are functions of their indices, with the extents used by loops as separate arguments.
Complex numbers are an arbitrary field `K` with a conjugation (`StarRing`); arithmetic is exact.
Accesses outside the extents are not modelled (numba does not check them either).
-/
import Verif.Basic
import Mathlib.Algebra.Star.Basic
import Mathlib.Algebra.Field.Basic
import Mathlib.Data.Matrix.Basic
import Mathlib.LinearAlgebra.Matrix.Notation
import Mathlib.Data.List.Dedup
import Mathlib.Order.Defs.LinearOrder

set_option autoImplicit false

namespace Verif.Calibration

open Function

/-! ### check_type and chunkify_rows -/

/-- The calibration modes (calibration/utils/utils.py:6-8). -/
inductive Mode
  | diagDiag | diag | full
  deriving DecidableEq, Repr

/-- `check_type` (calibration/utils/utils.py:11-39); only the numbers of axes are looked at. -/
def checkType (jonesNdim visNdim : Nat) (visType : String) : Except PyErr Mode :=
  match (if visType = "vis" then some (3, 4) else if visType = "model" then some (4, 5) else none) with
  | none => .error .valueError
  | some (d0, d1) =>
    if visNdim = d0 then
      if jonesNdim ≠ 5 then .error .runtimeError else .ok .diagDiag
    else if visNdim = d1 then
      if jonesNdim = 5 then .ok .diag
      else if jonesNdim = 6 then .ok .full
      else .error .runtimeError
    else .error .runtimeError

/-- `np.unique(time, return_counts=True)`: the sorted distinct values with their multiplicities
(numpy's documented behaviour) (calibration/utils/utils.py:43). -/
def npUniqueCounts {α : Type*} [LinearOrder α] (time : List α) : List (α × Nat) :=
  (time.dedup.mergeSort (fun a b => decide (a ≤ b))).map fun x => (x, time.count x)

/-- The list comprehension of lines 45-46 of calibration/utils/utils.py:
`[sum(counts[i:i+u]) for i in range(0, n, u)]`, with `n` the number of remaining elements. -/
def sliceSums (u : Nat) (hu : 0 < u) (counts : List Nat) : List Nat :=
  if _h : counts = [] then [] else
    (counts.take u).sum :: sliceSums u hu (counts.drop u)
termination_by counts.length
decreasing_by
  have : 0 < counts.length := List.length_pos_iff.2 _h
  rw [List.length_drop]; omega

/-- Output of `chunkify_rows` (calibration/utils/utils.py:42-59). -/
structure RowChunks where
  rowChunks : List Nat
  timeBinIndices : List Nat
  timeBinCounts : List Nat
  deriving DecidableEq, Repr

/-- `np.cumsum` (calibration/utils/utils.py:48). -/
def cumsum (l : List Nat) : List Nat := (List.range l.length).map fun i => (l.take (i + 1)).sum

/-- `chunkify_rows` (calibration/utils/utils.py:42-51). A zero step makes `range` raise `ValueError`.
Lines 47-48 fill `[0] ++ cumsum[0:-1]`, cut to `n_time` entries. -/
def chunkifyRows {α : Type*} [LinearOrder α] (time : List α) (utimesPerChunk : Nat) :
    Except PyErr RowChunks :=
  let uniq := npUniqueCounts time
  let counts := uniq.map Prod.snd
  if hu : 0 < utimesPerChunk then
    .ok { rowChunks := sliceSums utimesPerChunk hu counts
          timeBinIndices := (0 :: (cumsum counts).dropLast).take counts.length
          timeBinCounts := counts }
  else .error .valueError

/-! ### The common loop nest -/

/-- `vis[row, nu] = x` (the assignments to `vis` in calibration/utils/corrupt_vis.py:66-85). -/
def upd2 {V : Type*} (a : Nat → Nat → V) (r nu : Nat) (x : V) : Nat → Nat → V :=
  update a r (update (a r) nu x)

/-- The loop nest over time bins, rows of the bin and channels that is common to
corrupt_vis.py:76-84, correct_vis.py:89-99, residual_vis.py:79-90 and
compute_and_corrupt_vis.py:94-103. `lo t` is the (shifted) first row of bin `t`; `cell t row nu old`
is the new contents of the output cell. -/
def binLoop {V : Type*} (ntim : Nat) (lo cnt : Nat → Nat) (nchan : Nat)
    (cell : Nat → Nat → Nat → V → V) (init : Nat → Nat → V) : Nat → Nat → V :=
  forRange ntim init fun t vis =>
    forRange (cnt t) vis fun k vis =>
      forRange nchan vis fun nu vis =>
        upd2 vis (lo t + k) nu (cell t (lo t + k) nu (vis (lo t + k) nu))

/-- `time_bin_indices.min()` (corrupt_vis.py:70 and the corresponding lines elsewhere); numpy raises
`ValueError` on an empty array. -/
def minIdx (n : Nat) (idx : Nat → Nat) : Except PyErr Nat :=
  match n with
  | 0 => .error .valueError
  | m + 1 => .ok (forRange m (idx 0) fun i a => min a (idx (i + 1)))

/-- `time_bin_indices -= time_bin_indices.min()` (corrupt_vis.py:70): the shifted indices. -/
def shiftIdx (n : Nat) (idx : Nat → Nat) : Except PyErr (Nat → Nat) :=
  match minIdx n idx with
  | .error e => .error e
  | .ok m => .ok fun t => idx t - m

section kernels
variable {K : Type*} [Field K] [StarRing K]

/-- 2x2 storage for the (corr, corr) axes (an array of calibration/utils/utils.py:11-39 and of the functions in calibration/utils). -/
abbrev M2 (K : Type*) := Matrix (Fin 2) (Fin 2) K

/-! ### corrupt_vis -/

/-- `jones_mul`, DIAG_DIAG (corrupt_vis.py:12-15); indices: direction, correlation. -/
def jonesMulDD (ndir : Nat) (a1j model a2j : Nat → Nat → K) (out : Nat → K) : Nat → K :=
  forRange ndir out fun s out c => out c + a1j s c * model s c * star (a2j s c)

/-- `jones_mul`, DIAG (corrupt_vis.py:17-23). -/
def jonesMulD (ndir : Nat) (a1j : Nat → Fin 2 → K) (model : Nat → M2 K) (a2j : Nat → Fin 2 → K)
    (out : M2 K) : M2 K :=
  forRange ndir out fun s out =>
    !![out 0 0 + a1j s 0 * model s 0 0 * star (a2j s 0),
       out 0 1 + a1j s 0 * model s 0 1 * star (a2j s 1);
       out 1 0 + a1j s 1 * model s 1 0 * star (a2j s 0),
       out 1 1 + a1j s 1 * model s 1 1 * star (a2j s 1)]

/-- The products of the FULL variant of corrupt_vis (corrupt_vis.py:29-54): with `t1 .. t4` as in the code, the four right hand sides. -/
def fullTerms (a1j model a2j : M2 K) : M2 K :=
  let tmp : M2 K := fun i j => star (a2j j i)
  let t1 := a1j 0 0 * model 0 0
  let t2 := a1j 0 1 * model 1 0
  let t3 := a1j 0 0 * model 0 1
  let t4 := a1j 0 1 * model 1 1
  let t1' := a1j 1 0 * model 0 0
  let t2' := a1j 1 1 * model 1 0
  let t3' := a1j 1 0 * model 0 1
  let t4' := a1j 1 1 * model 1 1
  !![t1 * tmp 0 0 + t2 * tmp 0 0 + t3 * tmp 1 0 + t4 * tmp 1 0,
     t1 * tmp 0 1 + t2 * tmp 0 1 + t3 * tmp 1 1 + t4 * tmp 1 1;
     t1' * tmp 0 0 + t2' * tmp 0 0 + t3' * tmp 1 0 + t4' * tmp 1 0,
     t1' * tmp 0 1 + t2' * tmp 0 1 + t3' * tmp 1 1 + t4' * tmp 1 1]

/-- `jones_mul`, FULL (corrupt_vis.py:25-54). -/
def jonesMulF (ndir : Nat) (a1j model a2j : Nat → M2 K) (out : M2 K) : M2 K :=
  forRange ndir out fun s out =>
    let x := fullTerms (a1j s) (model s) (a2j s)
    !![out 0 0 + x 0 0, out 0 1 + x 0 1; out 1 0 + x 1 0, out 1 1 + x 1 1]

/-- Jones terms: `(time, ant, chan, dir, corr)` or `(time, ant, chan, dir, corr, corr)`. In the
first case with 2x2 visibilities the correlation index only takes the values 0 and 1
(an array of calibration/utils/utils.py:11-39 and of the functions in calibration/utils). -/
inductive Jones (K : Type*)
  | five (j : Nat → Nat → Nat → Nat → Nat → K)
  | six (j : Nat → Nat → Nat → Nat → M2 K)

/-- Visibilities `(row, chan, corr)` or `(row, chan, corr, corr)`
(an array of calibration/utils/utils.py:11-39 and of the functions in calibration/utils). -/
inductive Vis (K : Type*)
  | three (v : Nat → Nat → Nat → K)
  | four (v : Nat → Nat → M2 K)

/-- Model visibilities `(row, chan, dir, corr)` or `(row, chan, dir, corr, corr)`
(an array of calibration/utils/utils.py:11-39 and of the functions in calibration/utils). -/
inductive ModelVis (K : Type*)
  | four (v : Nat → Nat → Nat → Nat → K)
  | five (v : Nat → Nat → Nat → M2 K)

/-- `jones.ndim` (an array of calibration/utils/utils.py:11-39 and of the functions in calibration/utils). -/
def Jones.ndim {K : Type*} : Jones K → Nat
  | .five _ => 5
  | .six _ => 6

/-- `vis.ndim` (an array of calibration/utils/utils.py:11-39 and of the functions in calibration/utils). -/
def Vis.ndim {K : Type*} : Vis K → Nat
  | .three _ => 3
  | .four _ => 4

/-- `model.ndim` (an array of calibration/utils/utils.py:11-39 and of the functions in calibration/utils). -/
def ModelVis.ndim {K : Type*} : ModelVis K → Nat
  | .four _ => 4
  | .five _ => 5

/-- The correlation axis of a diagonal 2x2 term as an index 0/1
(an array of calibration/utils/utils.py:11-39 and of the functions in calibration/utils). -/
def pair {K : Type*} (g : Nat → K) : Fin 2 → K := fun i => g i.val

/-- `corrupt_vis` (corrupt_vis.py:60-87). `ntim` is the length of `time_bin_indices`, `nchan`, `ndir`
come from the shape of the model. -/
def corruptVis (ntim : Nat) (idx cnt : Nat → Nat) (ant1 ant2 : Nat → Nat) (nchan ndir : Nat)
    (jones : Jones K) (model : ModelVis K) : Except PyErr (Vis K) :=
  match checkType jones.ndim model.ndim "model" with
  | .error e => .error e
  | .ok _ =>
    match shiftIdx ntim idx with
    | .error e => .error e
    | .ok lo =>
      match jones, model with
      | .five j, .four m => .ok <| .three <| binLoop ntim lo cnt nchan
          (fun t row nu out => jonesMulDD ndir (j t (ant1 row) nu) (m row nu) (j t (ant2 row) nu) out)
          fun _ _ _ => 0
      | .five j, .five m => .ok <| .four <| binLoop ntim lo cnt nchan
          (fun t row nu out => jonesMulD ndir (fun s => pair (j t (ant1 row) nu s)) (m row nu)
            (fun s => pair (j t (ant2 row) nu s)) out)
          fun _ _ => 0
      | .six j, .five m => .ok <| .four <| binLoop ntim lo cnt nchan
          (fun t row nu out => jonesMulF ndir (j t (ant1 row) nu) (m row nu) (j t (ant2 row) nu) out)
          fun _ _ => 0
      | .six _, .four _ => .error .runtimeError

/-! ### residual_vis -/

/-- `subtract_model`, DIAG_DIAG (residual_vis.py:13-17); `out` is overwritten first. -/
def subtractDD (ndir : Nat) (a1j : Nat → Nat → K) (blj : Nat → K) (a2j model : Nat → Nat → K) :
    Nat → K :=
  forRange ndir blj fun s out c => out c - a1j s c * model s c * star (a2j s c)

/-- `subtract_model`, DIAG (residual_vis.py:19-26). -/
def subtractD (ndir : Nat) (a1j : Nat → Fin 2 → K) (blj : M2 K) (a2j : Nat → Fin 2 → K)
    (model : Nat → M2 K) : M2 K :=
  forRange ndir blj fun s out =>
    !![out 0 0 - a1j s 0 * model s 0 0 * star (a2j s 0),
       out 0 1 - a1j s 0 * model s 0 1 * star (a2j s 1);
       out 1 0 - a1j s 1 * model s 1 0 * star (a2j s 0),
       out 1 1 - a1j s 1 * model s 1 1 * star (a2j s 1)]

/-- The products of the FULL variant of residual_vis (residual_vis.py:33-58): with `t1 .. t4` as in the code, the four right hand sides. -/
def residualTerms (a1j model a2j : M2 K) : M2 K :=
  let tmp : M2 K := fun i j => star (a2j j i)
  let t1 := a1j 0 0 * model 0 0
  let t2 := a1j 0 1 * model 1 0
  let t3 := a1j 0 0 * model 0 1
  let t4 := a1j 0 1 * model 1 1
  let t1' := a1j 1 0 * model 0 0
  let t2' := a1j 1 1 * model 1 0
  let t3' := a1j 1 0 * model 0 1
  let t4' := a1j 1 1 * model 1 1
  !![t1 * tmp 0 0 + t2 * tmp 0 0 + t3 * tmp 1 0 + t4 * tmp 1 0,
     t1 * tmp 0 1 + t2 * tmp 0 1 + t3 * tmp 1 1 + t4 * tmp 1 1;
     t1' * tmp 0 0 + t2' * tmp 0 0 + t3' * tmp 1 0 + t4' * tmp 1 0,
     t1' * tmp 0 1 + t2' * tmp 0 1 + t3' * tmp 1 1 + t4' * tmp 1 1]

/-- `subtract_model`, FULL (residual_vis.py:28-58). -/
def subtractF (ndir : Nat) (a1j : Nat → M2 K) (blj : M2 K) (a2j model : Nat → M2 K) : M2 K :=
  forRange ndir blj fun s out =>
    let x := residualTerms (a1j s) (model s) (a2j s)
    !![out 0 0 - x 0 0, out 0 1 - x 0 1; out 1 0 - x 1 0, out 1 1 - x 1 1]

/-- `residual_vis` (residual_vis.py:63-93). `anyFlag row nu` is `np.any(flag[row, nu])`. The type
check looks at `jones` and `vis` only; a `model` of the wrong dimension fails when numba types the
kernel (`typeError`). -/
def residualVis (ntim : Nat) (idx cnt : Nat → Nat) (ant1 ant2 : Nat → Nat) (nchan ndir : Nat)
    (jones : Jones K) (vis : Vis K) (anyFlag : Nat → Nat → Bool) (model : ModelVis K) :
    Except PyErr (Vis K) :=
  match checkType jones.ndim vis.ndim "vis" with
  | .error e => .error e
  | .ok _ =>
    match shiftIdx ntim idx with
    | .error e => .error e
    | .ok lo =>
      match jones, vis, model with
      | .five j, .three v, .four m => .ok <| .three <| binLoop ntim lo cnt nchan
          (fun t row nu out => if anyFlag row nu then out else
            subtractDD ndir (j t (ant1 row) nu) (v row nu) (j t (ant2 row) nu) (m row nu))
          fun _ _ _ => 0
      | .five j, .four v, .five m => .ok <| .four <| binLoop ntim lo cnt nchan
          (fun t row nu out => if anyFlag row nu then out else
            subtractD ndir (fun s => pair (j t (ant1 row) nu s)) (v row nu)
              (fun s => pair (j t (ant2 row) nu s)) (m row nu))
          fun _ _ => 0
      | .six j, .four v, .five m => .ok <| .four <| binLoop ntim lo cnt nchan
          (fun t row nu out => if anyFlag row nu then out else
            subtractF ndir (j t (ant1 row) nu) (v row nu) (j t (ant2 row) nu) (m row nu))
          fun _ _ => 0
      | .six _, .three _, _ => .error .runtimeError
      | _, _, _ => .error .typeError

/-! ### correct_vis -/

/-- `jones_inverse_mul`, DIAG_DIAG (correct_vis.py:12-14), `ncorr` the last extent of `out`. -/
def inverseMulDD (ncorr : Nat) (a1j blj a2j out : Nat → K) : Nat → K :=
  forRange ncorr out fun c out => update out c (blj c / (a1j c * star (a2j c)))

/-- `jones_inverse_mul`, DIAG (correct_vis.py:16-20). -/
def inverseMulD (a1j : Fin 2 → K) (blj : M2 K) (a2j : Fin 2 → K) : M2 K :=
  !![blj 0 0 / (a1j 0 * star (a2j 0)), blj 0 1 / (a1j 0 * star (a2j 1));
     blj 1 0 / (a1j 1 * star (a2j 0)), blj 1 1 / (a1j 1 * star (a2j 1))]

/-- `jones_inverse_mul`, FULL (correct_vis.py:22-65). -/
def inverseMulF (a1j blj a2j : M2 K) : M2 K :=
  let deta1j := a1j 0 0 * a1j 1 1 - a1j 0 1 * a1j 1 0
  let a00 := a1j 1 1 / deta1j
  let a01 := -a1j 0 1 / deta1j
  let a10 := -a1j 1 0 / deta1j
  let a11 := a1j 0 0 / deta1j
  let a2c : M2 K := fun i j => star (a2j i j)
  let deta2j := a2c 0 0 * a2c 1 1 - a2c 0 1 * a2c 1 0
  let b00 := a2c 1 1 / deta2j
  let b01 := -a2c 1 0 / deta2j
  let b10 := -a2c 0 1 / deta2j
  let b11 := a2c 0 0 / deta2j
  let t1 := a00 * blj 0 0
  let t2 := a01 * blj 1 0
  let t3 := a00 * blj 0 1
  let t4 := a01 * blj 1 1
  let t1' := a10 * blj 0 0
  let t2' := a11 * blj 1 0
  let t3' := a10 * blj 0 1
  let t4' := a11 * blj 1 1
  !![t1 * b00 + t2 * b00 + t3 * b10 + t4 * b10, t1 * b01 + t2 * b01 + t3 * b11 + t4 * b11;
     t1' * b00 + t2' * b00 + t3' * b10 + t4' * b10, t1' * b01 + t2' * b01 + t3' * b11 + t4' * b11]

/-- `correct_vis` (correct_vis.py:70-102). `nidx` is the length of `time_bin_indices`; `ntim`, `nchan`,
`ndir` come from the shape of the Jones term, `ncorr` from `vis`. -/
def correctVis (nidx ntim : Nat) (idx cnt : Nat → Nat) (ant1 ant2 : Nat → Nat)
    (nchan ndir ncorr : Nat) (jones : Jones K) (vis : Vis K) (anyFlag : Nat → Nat → Bool) :
    Except PyErr (Vis K) :=
  match checkType jones.ndim vis.ndim "vis" with
  | .error e => .error e
  | .ok _ =>
    match shiftIdx nidx idx with
    | .error e => .error e
    | .ok lo =>
      if 1 < ndir then .error .valueError else
      match jones, vis with
      | .five j, .three v => .ok <| .three <| binLoop ntim lo cnt nchan
          (fun t row nu out => if anyFlag row nu then out else
            inverseMulDD ncorr (j t (ant1 row) nu 0) (v row nu) (j t (ant2 row) nu 0) out)
          fun _ _ _ => 0
      | .five j, .four v => .ok <| .four <| binLoop ntim lo cnt nchan
          (fun t row nu out => if anyFlag row nu then out else
            inverseMulD (pair (j t (ant1 row) nu 0)) (v row nu) (pair (j t (ant2 row) nu 0)))
          fun _ _ => 0
      | .six j, .four v => .ok <| .four <| binLoop ntim lo cnt nchan
          (fun t row nu out => if anyFlag row nu then out else
            inverseMulF (j t (ant1 row) nu 0) (v row nu) (j t (ant2 row) nu 0))
          fun _ _ => 0
      | .six _, .three _ => .error .runtimeError

end kernels

end Verif.Calibration
