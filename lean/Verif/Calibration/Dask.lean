/-
Model of africanus/calibration/utils/dask.py and africanus/calibration/phase_only/dask.py: the checks, the
blocks each task sees and the chunks declared for the result.

`dask.array.blockwise` (assumed): task `(i, k, l)` of the result gets block `i` of every "row" axis, block
`k` of every "chan" axis and block `l` of every "corr1" axis; contracted axes arrive as nested lists of
their blocks. `adjust_chunks` only changes the declared chunks and refuses a tuple of the wrong length.
Simplifications: `time_bin_counts` and the time axis of the Jones term are chunked like
`time_bin_indices`, all arrays with a row axis like `antenna1`, and the channel and correlation axes of
all arrays alike; the (2, 2) correlation axes of the DIAG and FULL modes are one block.
-/
import Verif.Calibration.Model2
import Verif.Blocks

set_option autoImplicit false

namespace Verif.Calibration

/-- `if x.chunks[a][0] != x.shape[a]: raise ValueError(...)`
(africanus/calibration/utils/dask.py:37-42, 87-98, 145-148, 190-195), with `chunks` the chunks of that axis. -/
def checkWhole (chunks : List Nat) : Except PyErr Unit :=
  match chunks with
  | [] => .error .indexError
  | c :: _ => if c ≠ chunks.sum then .error .valueError else .ok ()

/-- A block of the Jones terms: times from `t0`, channels from `n0`, correlations from `c0`
(the blocks that dask passes to the functions of calibration/utils/dask.py:25-228). -/
def Jones.block {K : Type*} (j : Jones K) (t0 n0 c0 : Nat) : Jones K :=
  match j with
  | .five j => .five fun t p nu s c => j (t0 + t) p (n0 + nu) s (c0 + c)
  | .six j => .six fun t p nu s => j (t0 + t) p (n0 + nu) s

/-- A block of visibilities: rows from `r0`, channels from `n0`, correlations from `c0`
(the blocks that dask passes to the functions of calibration/utils/dask.py:25-228). -/
def Vis.block {K : Type*} (v : Vis K) (r0 n0 c0 : Nat) : Vis K :=
  match v with
  | .three v => .three fun r nu c => v (r0 + r) (n0 + nu) (c0 + c)
  | .four v => .four fun r nu => v (r0 + r) (n0 + nu)

/-- A block of model visibilities (the blocks that dask passes to the functions of calibration/utils/dask.py:25-228). -/
def ModelVis.block {K : Type*} (v : ModelVis K) (r0 n0 c0 : Nat) : ModelVis K :=
  match v with
  | .four v => .four fun r nu s c => v (r0 + r) (n0 + nu) s (c0 + c)
  | .five v => .five fun r nu s => v (r0 + r) (n0 + nu) s

/-- Flags `(row, chan, corr)` or `(row, chan, corr, corr)`; the last axes are flattened (extent `ncorr` in
the first case, 4 in the second) (the blocks that dask passes to the functions of calibration/utils/dask.py:25-228). -/
inductive Flags
  | three (f : Nat → Nat → Nat → Bool)
  | four (f : Nat → Nat → Fin 2 → Fin 2 → Bool)

/-- A block of flags (the blocks that dask passes to the functions of calibration/utils/dask.py:25-228). -/
def Flags.block (f : Flags) (r0 n0 c0 : Nat) : Flags :=
  match f with
  | .three f => .three fun r nu c => f (r0 + r) (n0 + nu) (c0 + c)
  | .four f => .four fun r nu => f (r0 + r) (n0 + nu)

/-- `np.any(flag[row, nu])` with `ncorr` the extent of the correlation axis of the (block of) flags
(correct_vis.py:97, residual_vis.py:88, phase_only.py:99). -/
def Flags.any (f : Flags) (ncorr row nu : Nat) : Bool :=
  match f with
  | .three f => (List.range ncorr).any (f row nu)
  | .four f => f row nu 0 0 || f row nu 0 1 || f row nu 1 0 || f row nu 1 1

/-- A lazy result: declared chunks per axis and the value of every block
(the blocks that dask passes to the functions of calibration/utils/dask.py:25-228). -/
structure DaskVis (K : Type*) where
  rowChunks : List Nat
  chanChunks : List Nat
  corrChunks : List Nat
  block : Nat → Nat → Nat → Except PyErr (Vis K)

section
variable {K : Type*} [Field K] [StarRing K]

/-- `corrupt_vis` (africanus/calibration/utils/dask.py:25-71): `check_type`, then the three chunk checks,
then one call of the numpy function per block; `jones[0][0]` and `model[0]` are the first antenna and
direction blocks. `jAnt`, `jDir`, `mDir`: chunks of `jones` axes 1 and 3 and of `model` axis 2. -/
def daskCorruptVis (tChunks rowChunks chanChunks corrChunks jAnt jDir mDir : List Nat)
    (idx cnt ant1 ant2 : Nat → Nat) (jones : Jones K) (model : ModelVis K) :
    Except PyErr (DaskVis K) :=
  match checkType jones.ndim model.ndim "model" with
  | .error e => .error e
  | .ok _ =>
    match checkWhole jAnt with
    | .error e => .error e
    | .ok _ =>
      match checkWhole jDir with
      | .error e => .error e
      | .ok _ =>
        match checkWhole mDir with
        | .error e => .error e
        | .ok _ =>
          if rowChunks.length ≠ tChunks.length then .error .valueError
          else .ok {
            rowChunks := rowChunks
            chanChunks := chanChunks
            corrChunks := corrChunks
            block := fun i k l =>
              let t0 := blockOff tChunks i
              let r0 := blockOff rowChunks i
              let n0 := blockOff chanChunks k
              let c0 := blockOff corrChunks l
              corruptVis (blockSize tChunks i) (fun t => idx (t0 + t)) (fun t => cnt (t0 + t))
                (fun r => ant1 (r0 + r)) (fun r => ant2 (r0 + r)) (blockSize chanChunks k)
                (blockSize mDir 0) (jones.block t0 n0 c0) (model.block r0 n0 c0) }

/-- `correct_vis` (africanus/calibration/utils/dask.py:135-177): the chunk checks come first. -/
def daskCorrectVis (tChunks rowChunks chanChunks corrChunks jAnt jDir : List Nat)
    (idx cnt ant1 ant2 : Nat → Nat) (jones : Jones K) (vis : Vis K) (flag : Flags) :
    Except PyErr (DaskVis K) :=
  match checkWhole jAnt with
  | .error e => .error e
  | .ok _ =>
    match checkWhole jDir with
    | .error e => .error e
    | .ok _ =>
      match checkType jones.ndim vis.ndim "vis" with
      | .error e => .error e
      | .ok _ =>
        if rowChunks.length ≠ tChunks.length then .error .valueError
        else .ok {
          rowChunks := rowChunks
          chanChunks := chanChunks
          corrChunks := corrChunks
          block := fun i k l =>
            let t0 := blockOff tChunks i
            let r0 := blockOff rowChunks i
            let n0 := blockOff chanChunks k
            let c0 := blockOff corrChunks l
            let nc := blockSize corrChunks l
            correctVis (blockSize tChunks i) (blockSize tChunks i) (fun t => idx (t0 + t))
              (fun t => cnt (t0 + t)) (fun r => ant1 (r0 + r)) (fun r => ant2 (r0 + r))
              (blockSize chanChunks k) (blockSize jDir 0) nc (jones.block t0 n0 c0)
              (vis.block r0 n0 c0) ((flag.block r0 n0 c0).any nc) }

/-- `residual_vis` (africanus/calibration/utils/dask.py:180-228). -/
def daskResidualVis (tChunks rowChunks chanChunks corrChunks jAnt jDir mDir : List Nat)
    (idx cnt ant1 ant2 : Nat → Nat) (jones : Jones K) (vis : Vis K) (flag : Flags)
    (model : ModelVis K) : Except PyErr (DaskVis K) :=
  match checkWhole jAnt with
  | .error e => .error e
  | .ok _ =>
    match checkWhole jDir with
    | .error e => .error e
    | .ok _ =>
      match checkWhole mDir with
      | .error e => .error e
      | .ok _ =>
        match checkType jones.ndim vis.ndim "vis" with
        | .error e => .error e
        | .ok _ =>
          if rowChunks.length ≠ tChunks.length then .error .valueError
          else .ok {
            rowChunks := rowChunks
            chanChunks := chanChunks
            corrChunks := corrChunks
            block := fun i k l =>
              let t0 := blockOff tChunks i
              let r0 := blockOff rowChunks i
              let n0 := blockOff chanChunks k
              let c0 := blockOff corrChunks l
              residualVis (blockSize tChunks i) (fun t => idx (t0 + t)) (fun t => cnt (t0 + t))
                (fun r => ant1 (r0 + r)) (fun r => ant2 (r0 + r)) (blockSize chanChunks k)
                (blockSize mDir 0) (jones.block t0 n0 c0) (vis.block r0 n0 c0)
                ((flag.block r0 n0 c0).any (blockSize corrChunks l)) (model.block r0 n0 c0) }

end

/-- `compute_and_corrupt_vis` (africanus/calibration/utils/dask.py:74-132). `uvwLast`, `lmDir`, `lmLast`:
chunks of axis 1 of `uvw` and of axes 1 and 2 of `lm`. The model and `lm` are indexed by time in the
kernel (compute_and_corrupt_vis.py:101-104) and blocked like `time_bin_indices`. -/
noncomputable def daskComputeAndCorruptVis (m2pioc : ℝ)
    (tChunks rowChunks chanChunks corrChunks jAnt jDir mDir uvwLast lmDir lmLast : List Nat)
    (idx cnt ant1 ant2 : Nat → Nat) (jones : Jones ℂ) (model : ModelVis ℂ) (uvw : Nat → Fin 3 → ℝ)
    (freq : Nat → ℝ) (lm : Nat → Nat → Fin 2 → ℝ) : Except PyErr (DaskVis ℂ) :=
  match checkWhole jAnt with
  | .error e => .error e
  | .ok _ =>
    match checkWhole jDir with
    | .error e => .error e
    | .ok _ =>
      match checkWhole mDir with
      | .error e => .error e
      | .ok _ =>
        match checkWhole uvwLast with
        | .error e => .error e
        | .ok _ =>
          match checkWhole lmDir with
          | .error e => .error e
          | .ok _ =>
            match checkWhole lmLast with
            | .error e => .error e
            | .ok _ =>
              match checkType jones.ndim model.ndim "model" with
              | .error e => .error e
              | .ok _ =>
                if rowChunks.length ≠ tChunks.length then .error .valueError
                else .ok {
                  rowChunks := rowChunks
                  chanChunks := chanChunks
                  corrChunks := corrChunks
                  block := fun i k l =>
                    let t0 := blockOff tChunks i
                    let r0 := blockOff rowChunks i
                    let n0 := blockOff chanChunks k
                    let c0 := blockOff corrChunks l
                    computeAndCorruptVis m2pioc (blockSize tChunks i) (fun t => idx (t0 + t))
                      (fun t => cnt (t0 + t)) (fun r => ant1 (r0 + r)) (fun r => ant2 (r0 + r))
                      (blockSize chanChunks k) (blockSize mDir 0) (blockSize corrChunks l)
                      (jones.block t0 n0 c0) (model.block t0 n0 c0) (fun r => uvw (r0 + r))
                      (fun nu => freq (n0 + nu)) (fun t => lm (t0 + t)) }

/-- A lazy result on the axes of the Jones term; `axis0` are the declared chunks of its first axis,
`extent i` the actual extent of block `i` along it (calibration/phase_only/dask.py:18-68). -/
structure DaskJhj (M : Type*) where
  axis0 : List Nat
  extent : Nat → Nat
  block : Nat → Nat → Except PyErr (Arr5 M)

/-- `compute_jhj` (africanus/calibration/phase_only/dask.py:18-41), antennas, directions and correlations
in one block. The result of each task is `np.zeros(jones.shape)` filled in (phase_only.py:91), so its
first extent is that of the block of the Jones term. -/
noncomputable def daskComputeJhj (jonesNdim modelNdim : Nat) (tChunks rowChunks chanChunks : List Nat)
    (ndir ncorr : Nat) (idx cnt ant1 ant2 : Nat → Nat) (jones : Arr5 ℂ)
    (model : Nat → Nat → Nat → Nat → ℂ) (flag : Flags) : Except PyErr (DaskJhj ℝ) :=
  match checkType jonesNdim modelNdim "model" with
  | .error e => .error e
  | .ok .diagDiag =>
    if rowChunks.length ≠ tChunks.length then .error .valueError
    else .ok {
      axis0 := rowChunks
      extent := blockSize tChunks
      block := fun i k =>
        let t0 := blockOff tChunks i
        let r0 := blockOff rowChunks i
        let n0 := blockOff chanChunks k
        computeJhj (blockSize tChunks i) (fun t => idx (t0 + t)) (fun t => cnt (t0 + t))
          (fun r => ant1 (r0 + r)) (fun r => ant2 (r0 + r)) (blockSize chanChunks k) ndir
          (fun t p nu => jones (t0 + t) p (n0 + nu)) (fun r nu => model (r0 + r) (n0 + nu))
          ((flag.block r0 n0 0).any ncorr) }
  | .ok _ => .error .notImplementedError

/-- `compute_jhr` (africanus/calibration/phase_only/dask.py:44-68). -/
noncomputable def daskComputeJhr (jonesNdim residualNdim : Nat) (tChunks rowChunks chanChunks : List Nat)
    (ndir ncorr : Nat) (idx cnt ant1 ant2 : Nat → Nat) (jones : Arr5 ℂ)
    (residual : Nat → Nat → Nat → ℂ) (model : Nat → Nat → Nat → Nat → ℂ) (flag : Flags) :
    Except PyErr (DaskJhj ℂ) :=
  match checkType jonesNdim residualNdim "vis" with
  | .error e => .error e
  | .ok .diagDiag =>
    if rowChunks.length ≠ tChunks.length then .error .valueError
    else .ok {
      axis0 := rowChunks
      extent := blockSize tChunks
      block := fun i k =>
        let t0 := blockOff tChunks i
        let r0 := blockOff rowChunks i
        let n0 := blockOff chanChunks k
        computeJhr (blockSize tChunks i) (fun t => idx (t0 + t)) (fun t => cnt (t0 + t))
          (fun r => ant1 (r0 + r)) (fun r => ant2 (r0 + r)) (blockSize chanChunks k) ndir
          (fun t p nu => jones (t0 + t) p (n0 + nu)) (fun r nu => residual (r0 + r) (n0 + nu))
          (fun r nu => model (r0 + r) (n0 + nu)) ((flag.block r0 n0 0).any ncorr) }
  | .ok _ => .error .notImplementedError

end Verif.Calibration
