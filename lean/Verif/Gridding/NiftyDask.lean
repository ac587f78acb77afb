/-
Model of africanus/gridding/nifty/dask.py: grid, degrid, dirty and model on dask arrays.

nifty_gridder is outside the model. What is assumed of it is in `Lib`: `getIndices` selects samples that are not flagged
and whose w is in range, `ms2grid_c` adds up one contribution per selected sample, `grid2ms_c` gives a value to each
selected sample and 0 to the others, and all of them check the extents of their arrays (`RuntimeError`).
-/
import Verif.Gridding.Nifty
import Verif.Dask.Blockwise

set_option autoImplicit false

namespace Verif.Nifty

open Verif.Dask

/-- nifty_gridder with one `GridderConfig`: extents of the grid and of the image, and what happens to a sample, given
its coordinates and frequency. `R` holds coordinates, frequencies and weights, `K` visibilities and grids
(gridding/nifty/dask.py:66-117). -/
structure Lib (R K : Type) where
  nu : Nat
  nv : Nat
  nx : Nat
  ny : Nat
  inRange : (Nat → R) → R → R → R → Bool
  contrib : (Nat → R) → R → K → R → Nat → Nat → K
  sample : (Nat → R) → R → (Nat → Nat → K) → K
  toDirty : (Nat → Nat → K) → Nat → Nat → R
  toGrid : (Nat → Nat → K) → Nat → Nat → K

/-- `ng.Baselines` (gridding/nifty/dask.py:93-96). -/
structure Baselines (R : Type) where
  nrow : Nat
  nchan : Nat
  uvw : Nat → Nat → R
  freq : Nat → R

variable {R K : Type}

/-- `ng.Baselines(uvw, chan_freq)` (gridding/nifty/dask.py:96). -/
def mkBaselines (uvw freq : NArr R) : Except PyErr (Baselines R) :=
  match uvw.shape, freq.shape with
  | [n, c], [f] => if c = 3 then .ok ⟨n, f, fun r k => uvw.val [r, k], fun k => freq.val [k]⟩ else .error .runtimeError
  | _, _ => .error .typeError

/-- `ng.getIndices(baselines, config, flags, -1, -1, wmin, wmax)`: the selected samples (gridding/nifty/dask.py:102). -/
def Lib.getIndices (lib : Lib R K) (b : Baselines R) (flag : NArr Bool) (wmin wmax : R) :
    Except PyErr (Nat → Nat → Bool) :=
  if flag.shape = [b.nrow, b.nchan] then
    .ok fun r f => !flag.val [r, f] && lib.inRange (b.uvw r) (b.freq f) wmin wmax
  else .error .runtimeError

/-- `ng.ms2grid_c(baselines, config, indices, vis, None, weights)` (gridding/nifty/dask.py:109, 116). -/
def Lib.ms2grid [AddCommMonoid K] (lib : Lib R K) (b : Baselines R) (idx : Nat → Nat → Bool) (vis : NArr K)
    (weights : NArr R) : Except PyErr (Nat → Nat → K) :=
  if vis.shape = [b.nrow, b.nchan] ∧ weights.shape = [b.nrow, b.nchan] then
    .ok fun u v => ∑ r ∈ Finset.range b.nrow, ∑ f ∈ Finset.range b.nchan,
      if idx r f then lib.contrib (b.uvw r) (b.freq f) (vis.val [r, f]) (weights.val [r, f]) u v else 0
  else .error .runtimeError

/-- `ng.grid2ms_c(baselines, config, indices, grid)` (gridding/nifty/dask.py:450-452). -/
def Lib.grid2ms [Zero K] (lib : Lib R K) (b : Baselines R) (idx : Nat → Nat → Bool) (grid : NArr K) :
    Except PyErr (NArr K) :=
  if grid.shape = [lib.nu, lib.nv] then
    .ok ⟨[b.nrow, b.nchan], fun i => match i with
      | [r, f] => if idx r f then lib.sample (b.uvw r) (b.freq f) fun u v => grid.val [u, v] else 0
      | _ => 0⟩
  else .error .runtimeError

/-! ### tasks -/

/-- A label of gridding/nifty/dask.py:270-369. -/
def lRow : Label := .name "row"
/-- A label of gridding/nifty/dask.py:270-369. -/
def lUvw : Label := .name "uvw"
/-- A label of gridding/nifty/dask.py:270-369. -/
def lChan : Label := .name "chan"
/-- A label of gridding/nifty/dask.py:270-369. -/
def lNx : Label := .name "nx"
/-- A label of gridding/nifty/dask.py:270-369. -/
def lNy : Label := .name "ny"

/-- `assert len(x) == 1` and `x[0]` of the list of blocks along a contracted axis (gridding/nifty/dask.py:95, 108). -/
def onlyBlock {α : Type} : Nest α → Except PyErr (Nest α)
  | .node [x] => .ok x
  | _ => .error .assertionError

/-- A dask array along the rows whose blocks are objects and not arrays (gridding/nifty/dask.py:310-313). -/
structure Objs (β : Type) where
  rows : List Nat
  block : Nat → Except PyErr β

/-- The argument as `blockwise` sees it (gridding/nifty/dask.py:310-313). -/
def Objs.arg {β : Type} (o : Objs β) : Arg := ([lRow], [o.rows])

/-- The block of an array of objects. If the chunks are unified to others, the blocks would be cut and joined, which
these objects do not support (gridding/nifty/dask.py:310-313, 326-334). -/
def Objs.fetch {β : Type} (env : Label → List Nat) (o : Objs β) (i : Nat) : Except PyErr β :=
  if newChunks env lRow o.rows = o.rows then o.block (if o.rows.length = 1 then 0 else i) else .error .typeError

/-- `da.blockwise(f, ("row",), ...)` with objects as blocks (gridding/nifty/dask.py:310-313, 326-334). -/
def rowwise {β : Type} (args : List Arg) (f : (Label → List Nat) → Nat → Except PyErr β) : Except PyErr (Objs β) :=
  match unify args with
  | .error e => .error e
  | .ok env => .ok ⟨env lRow, f env⟩

/-- `baselines` (nifty/dask.py:93-96, 310-313, 492-495). -/
def daskBaselines (uvw freq : DArr R) : Except PyErr (Objs (Baselines R)) :=
  rowwise [uvw.arg [lRow, lUvw], freq.arg [lChan]] fun env i => do
    let f ← onlyBlock (Verif.Dask.fetch env freq [lChan] [(lRow, i)])
    mkBaselines (← (Verif.Dask.fetch env uvw [lRow, lUvw] [(lRow, i)]).firsts 1) (← f.array)

/-- `x[:, :, corr]`: `IndexError` outside the axis (gridding/nifty/dask.py:322-324). -/
def corrSlice {α : Type} (x : DArr α) (corr : Nat) : Except PyErr (DArr α) :=
  if corr < (x.chunks.getD 2 []).sum then .ok ⟨x.chunks.take 2, fun i => x.val (i ++ [corr])⟩ else .error .indexError

/-- `indices` (nifty/dask.py:99-103, 326-334, 504-512): only the first block of the flags along the channels. -/
def daskIndices (lib : Lib R K) (baselines : Objs (Baselines R)) (flags : DArr Bool) (wmin wmax : R) :
    Except PyErr (Objs (Nat → Nat → Bool)) :=
  rowwise [baselines.arg, flags.arg [lRow, lChan]] fun env i => do
    lib.getIndices (← baselines.fetch env i) (← (Verif.Dask.fetch env flags [lRow, lChan] [(lRow, i)]).firsts 1) wmin wmax

/-- The lazy grid of one correlation: what gridding each row block gives, and how many streams the blocks are added up
in (`none`: all of them are added up by `sum(axis=0)`) (gridding/nifty/dask.py:336-367). -/
structure CorrGrid (K : Type) where
  streams : Option ℤ
  blocks : Nat
  part : Nat → Except PyErr (Nat → Nat → K)

/-- The body of the loop over the correlations of `grid` (nifty/dask.py:321-367). Without streams, the visibilities and
weights are those of the unified chunks (nifty/dask.py:106-110); with streams, block `(rb, 0)` of each. -/
def gridCorr [AddCommMonoid K] (lib : Lib R K) (baselines : Objs (Baselines R)) (vis : DArr K) (flags : DArr Bool)
    (weights : DArr R) (wmin wmax : R) (streams : Option ℤ) (corr : Nat) : Except PyErr (CorrGrid K) := do
  let flags ← corrSlice flags corr
  let vis ← corrSlice vis corr
  let weights ← corrSlice weights corr
  let indices ← daskIndices lib baselines flags wmin wmax
  match streams with
  | none =>
    let o ← rowwise [baselines.arg, indices.arg, vis.arg [lRow, lChan], weights.arg [lRow, lChan]] fun env i => do
      let v ← onlyBlock (Verif.Dask.fetch env vis [lRow, lChan] [(lRow, i)])
      lib.ms2grid (← baselines.fetch env i) (← indices.fetch env i) (← v.array)
        (← (Verif.Dask.fetch env weights [lRow, lChan] [(lRow, i)]).firsts 1)
    return ⟨none, o.rows.length, o.block⟩
  | some s => return ⟨some s, indices.rows.length, fun rb =>
      if rb < (vis.chunks.getD 0 []).length ∧ rb < (weights.chunks.getD 0 []).length ∧ rb < baselines.rows.length then do
        lib.ms2grid (← baselines.block rb) (← indices.block rb) (vis.block [rb, 0]) (weights.block [rb, 0])
      else .error .keyError⟩

/-- `grid` (nifty/dask.py:270-369): the lazy grid of each correlation; `da.stack` of no array raises `ValueError`. -/
def daskGrid [AddCommMonoid K] (lib : Lib R K) (vis : DArr K) (uvw : DArr R) (flags : DArr Bool) (weights : DArr R)
    (freq : DArr R) (wmin wmax : R) (streams : Option ℤ) : Except PyErr (List (CorrGrid K)) := do
  if (freq.chunks.getD 0 []).length ≠ 1 then .error .valueError
  else
    let baselines ← daskBaselines uvw freq
    let grids ← (List.range (vis.chunks.getD 2 []).sum).mapM
      (gridCorr lib baselines vis flags weights wmin wmax streams)
    if grids = [] then .error .valueError else .ok grids

/-- The body of the loop over the correlations of `degrid` (nifty/dask.py:500-522). -/
def degridCorr [Zero K] (lib : Lib R K) (baselines : Objs (Baselines R)) (grid : DArr K) (flags : DArr Bool)
    (nchan : Nat) (wmin wmax : R) (corr : Nat) : Except PyErr (Lazy K) := do
  let flags ← corrSlice flags corr
  let grid ← corrSlice grid corr
  let indices ← daskIndices lib baselines flags wmin wmax
  blockwise [lRow, lChan] [(lChan, nchan)] [grid.arg [lNy, lNx], baselines.arg, indices.arg] fun env out => do
    let g ← onlyBlock (← onlyBlock (Verif.Dask.fetch env grid [lNy, lNx] out))
    let i := (pick lRow out).getD 0
    lib.grid2ms (← baselines.fetch env i) (← indices.fetch env i) (← g.array)

/-- `da.stack(arrays, axis=2)` of arrays with the same chunks (gridding/nifty/dask.py:369). -/
def stack [Zero K] (l : List (Lazy K)) : Except PyErr (Lazy K) :=
  match l with
  | [] => .error .valueError
  | x :: xs => .ok {
      chunks := x.chunks ++ [List.replicate (xs.length + 1) 1]
      block := fun b =>
        match (x :: xs)[b.getD 2 0]? with
        | none => .error .keyError
        | some y => do
          let a ← y.block (b.take 2)
          return ⟨a.shape ++ [1], fun i => a.val (i.take 2)⟩ }

/-- `degrid` (nifty/dask.py:455-524). -/
def daskDegrid [Zero K] (lib : Lib R K) (grid : DArr K) (uvw : DArr R) (flags : DArr Bool) (freq : DArr R)
    (wmin wmax : R) : Except PyErr (Lazy K) := do
  if (freq.chunks.getD 0 []).length ≠ 1 then .error .valueError
  else
    let baselines ← daskBaselines uvw freq
    stack (← (List.range (grid.chunks.getD 2 []).sum).mapM
      (degridCorr lib baselines grid flags (freq.chunks.getD 0 []).sum wmin wmax))

/-- `_nifty_dirty` and `_nifty_model` (nifty/dask.py:372-377, 411-416): `f` is applied to each correlation of an array
with first extents `n` and `m`, which it checks; `np.stack` of no array raises `ValueError`. -/
def perCorr {A B : Type} [Inhabited B] (n m n' m' : Nat) (f : (Nat → Nat → A) → Nat → Nat → B) (a : NArr A) : Except PyErr (NArr B) :=
  match a.shape with
  | [p, q, c] =>
    if c = 0 then .error .valueError
    else if p = n ∧ q = m then .ok ⟨[n', m', c], fun i => match i with
      | [x, y, k] => f (fun u v => a.val [u, v, k]) x y
      | _ => default⟩
    else .error .runtimeError
  | _ => .error .indexError

/-- `dirty` and `model` (nifty/dask.py:400-408, 439-447): `adjust_chunks` declares the extent of the image (or grid) for
each block along the first two axes. -/
def daskPerCorr {A B : Type} [Inhabited B] (n m n' m' : Nat) (f : (Nat → Nat → A) → Nat → Nat → B) (a : DArr A) : Lazy B where
  chunks := [List.replicate (a.chunks.getD 0 []).length n', List.replicate (a.chunks.getD 1 []).length m',
    a.chunks.getD 2 []]
  block := fun b => perCorr n m n' m' f (a.block b)

/-- `dirty` (nifty/dask.py:380-408). -/
def daskDirty [Inhabited R] (lib : Lib R K) (grid : DArr K) : Lazy R :=
  daskPerCorr lib.nu lib.nv lib.nx lib.ny lib.toDirty grid

/-- `model` (nifty/dask.py:419-447). -/
def daskModel [Inhabited K] (lib : Lib R K) (image : DArr K) : Lazy K :=
  daskPerCorr lib.nx lib.ny lib.nu lib.nv lib.toGrid image

/-! ### the pickled configuration -/

/-- `GridderConfigWrapper` (nifty/dask.py:33-49): its attributes and the arguments of the `ng.GridderConfig` it holds. -/
structure ConfigWrapper (R : Type) where
  nx : Nat
  ny : Nat
  csx : R
  csy : R
  eps : R
  config : Nat × Nat × R × R × R

/-- `GridderConfigWrapper(nx, ny, eps, cell_size_x, cell_size_y)` (nifty/dask.py:38-49); also `grid_config`
(nifty/dask.py:66-91). -/
def mkWrapper (nx ny : Nat) (eps csx csy : R) : ConfigWrapper R := ⟨nx, ny, csx, csy, eps, (nx, ny, eps, csx, csy)⟩

/-- `__reduce__` (nifty/dask.py:53-55): the arguments that unpickling calls the class with. -/
def ConfigWrapper.reduce (w : ConfigWrapper R) : Nat × Nat × R × R × R := (w.nx, w.ny, w.eps, w.csx, w.csy)

/-- Unpickling (gridding/nifty/dask.py:53-55). -/
def unpickle (t : Nat × Nat × R × R × R) : ConfigWrapper R := mkWrapper t.1 t.2.1 t.2.2.1 t.2.2.2.1 t.2.2.2.2

/-- `normalize_gridder_config_wrapper` (nifty/dask.py:59-61): what the dask token is computed from. -/
def ConfigWrapper.token (w : ConfigWrapper R) : Nat × Nat × R × R × R := (w.nx, w.ny, w.csx, w.csy, w.eps)

end Verif.Nifty
