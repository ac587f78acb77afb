/-
Model of africanus/model/shape/dask.py, model/spectral/dask.py, model/wsclean/dask.py, model/spi/dask.py and
model/coherency/dask.py, on top of the models of the numpy functions.
-/
import Verif.Dask.Rime
import Verif.ModelData.Spectral
import Verif.ModelData.Coherency

set_option autoImplicit false

namespace Verif.Dask

open Verif.ModelData

/-! ### the numpy functions on arrays -/

/-- `gaussian` on arrays (model/shape/gaussian_shape.py:23-52): `emaj, emin, angle = shape_params[s]` and
`u, v, w = uvw[r]` check the lengths, once a source, or a source and a row, are reached. -/
noncomputable def npGaussian (uvw frequency shapeParams : NArr ℝ) : Except PyErr (NArr ℝ) :=
  match uvw.shape, frequency.shape, shapeParams.shape with
  | [nr, d], [nf], [ns, c] =>
    if 0 < ns ∧ c ≠ 3 then .error .valueError
    else if 0 < ns ∧ 0 < nr ∧ d ≠ 3 then .error .valueError
    else .ok ⟨[ns, nr, nf], fun i => match i with
      | [s, r, f] => gaussianShape (uvw.triple r).1 (uvw.triple r).2.1 (uvw.triple r).2.2 (frequency.val [f])
          (shapeParams.triple s).1 (shapeParams.triple s).2.1 (shapeParams.triple s).2.2
      | _ => 0⟩
  | _, _, _ => .error .typeError

/-- The index of a flattened polarisation, for at most one polarisation axis (model/spectral/spec_model.py:85-93). -/
def polIndex (dims : List Nat) (p : Nat) : List Nat := if dims = [] then [] else [p]

/-- `spectral_model` on arrays (model/spectral/spec_model.py:96-213) for at most one polarisation axis. -/
noncomputable def npSpectralModel (stokes spi refFreq frequency : NArr ℝ) (base : Base) : Except PyErr (NArr ℝ) :=
  match stokes.shape, spi.shape, frequency.shape with
  | ns :: sdims, _ :: nspi :: pdims, [nf] =>
    match spectralModel sdims pdims nspi (fun s p => stokes.val (s :: polIndex sdims p))
        (fun s si p => spi.val (s :: si :: polIndex sdims p)) (fun s => refFreq.val [s]) (fun f => frequency.val [f])
        base with
    | .error e => .error e
    | .ok out => .ok ⟨ns :: nf :: sdims, fun i => match i with
      | s :: f :: rest => out s f (rest.headD 0)
      | _ => 0⟩
  | _, _, _ => .error .typeError

/-- The `log_poly` argument on arrays: an array or a boolean (model/wsclean/spec_model.py:31-57). -/
inductive LogArg (α : Type)
  | array (a : α)
  | bool (b : Bool)

/-- As the kernel sees it (model/wsclean/spec_model.py:46-57). -/
def LogArg.toPoly : LogArg (NArr Bool) → LogPoly
  | .array a => .array (a.shape.headD 0) fun s => a.val [s]
  | .bool b => .scalar b

/-- `spectra` on arrays (model/wsclean/spec_model.py:60-119); one axis for the fluxes, no other is compiled. -/
noncomputable def npSpectra (flux coeffs : NArr ℝ) (logPoly : LogArg (NArr Bool)) (refFreq frequency : NArr ℝ) :
    Except PyErr (NArr ℝ) :=
  match flux.shape, coeffs.shape, refFreq.shape, frequency.shape with
  | [nI], [nC, n], [nR], [nf] =>
    match spectra nI nC nR nf n (fun s => flux.val [s]) (fun s c => coeffs.val [s, c]) logPoly.toPoly
        (fun s => refFreq.val [s]) (fun f => frequency.val [f]) (fun _ _ => 0) with
    | .error e => .error e
    | .ok out => .ok ⟨[nI, nf], fun i => match i with
      | [s, f] => out s f
      | _ => 0⟩
  | _, _, _, _ => .error .typeError

/-- One component's fit, in the rows of the result (model/spi/component_spi.py:50-53). -/
noncomputable def FitOut.row (o : ModelData.FitOut) (k : Nat) : ℝ :=
  if k = 0 then o.alpha else if k = 1 then o.alphaVar else if k = 2 then o.i0 else o.i0Var

/-- The fit of component `c` in arrays of components (model/spi/component_spi.py:12-86). -/
noncomputable def fitOf (data weights freqs : NArr ℝ) (n : Nat) (freq0 : ℝ) (alphai i0i beam : Option (NArr ℝ)) (tol : ℝ)
    (maxiter : Nat) (float64 : Option Bool) (c : Nat) : Except PyErr ModelData.FitOut :=
  fitSpi n (fun v => data.val [c, v]) (fun v => weights.val [v]) (fun v => freqs.val [v]) freq0
    (alphai.map fun a => a.val [c]) (i0i.map fun a => a.val [c]) (beam.map fun a => fun v => a.val [c, v]) tol maxiter float64

/-- One iteration of the loop over components (model/spi/component_spi.py:17-53). -/
noncomputable def fitStep (data weights freqs : NArr ℝ) (n : Nat) (freq0 : ℝ) (alphai i0i beam : Option (NArr ℝ)) (tol : ℝ)
    (maxiter : Nat) (float64 : Option Bool) (c : Nat) (out : Nat → ModelData.FitOut) : Except PyErr (Nat → ModelData.FitOut) :=
  match fitOf data weights freqs n freq0 alphai i0i beam tol maxiter float64 c with
  | .error e => .error e
  | .ok v => .ok (Function.update out c v)

/-- `fit_spi_components` on arrays (model/spi/component_spi.py:57-86): without a starting flux the minimum over no
channels raises `ValueError`, then the type of the data is checked, then the loop over components runs. -/
noncomputable def npFitSpi (data weights freqs : NArr ℝ) (freq0 : ℝ) (alphai i0i beam : Option (NArr ℝ)) (tol : ℝ)
    (maxiter : Nat) (float64 : Option Bool) : Except PyErr (NArr ℝ) :=
  match data.shape with
  | [nc, n] =>
    if n = 0 ∧ i0i = none then .error .valueError
    else if float64 = none then .error .valueError
    else
      match forRangeM nc (fun (_ : Nat) => (⟨0, 0, 0, 0⟩ : ModelData.FitOut))
          (fitStep data weights freqs n freq0 alphai i0i beam tol maxiter float64) with
      | .error e => .error e
      | .ok out => .ok ⟨[4, nc], fun i => match i with
        | [k, c] => FitOut.row (out c) k
        | _ => 0⟩
  | _ => .error .valueError

/-- `idx` is inside the axes `dims` (model/coherency/conversion.py:153-161). -/
def inBounds (idx dims : List Nat) : Bool := (List.zipWith (fun i n => decide (i < n)) idx dims).all id

/-- `convert_impl` on arrays (model/coherency/conversion.py:153-161): `Ellipsis` keeps the leading axes. A mapping that
reads past the correlation axes raises `IndexError`. `none` is memory left unassigned by `np.empty`. -/
noncomputable def convertImpl (input : NArr ℂ) (mapping : List MapEntry) (nIn : Nat) (outShape : List Nat) :
    Except PyErr (NArr (Option ℂ)) :=
  let free := input.shape.take (input.shape.length - nIn)
  let corr := input.shape.drop (input.shape.length - nIn)
  if mapping.all fun e => inBounds e.1 corr && inBounds e.2.1 corr then
    .ok ⟨free ++ outShape, fun i =>
      runMapping (fun j => input.val (i.take free.length ++ j)) mapping (i.drop free.length)⟩
  else .error .indexError

/-- `convert` on arrays (model/coherency/conversion.py:164-172). -/
noncomputable def npConvert (input : NArr ℂ) (inSchema outSchema : Schema) : Except PyErr (NArr (Option ℂ)) := do
  let i ← elementIndices inSchema
  let m ← convertSetup input.shape inSchema outSchema
  convertImpl input m.1 i.2.length m.2

/-! ### the dask wrappers -/

/-- A label of the calls of `blockwise` in the dask.py of model/shape, model/spectral, model/wsclean, model/spi and model/coherency. -/
def lUvwComp : Label := .name "uvw-comp"
/-- A label of the calls of `blockwise` in the dask.py of model/shape, model/spectral, model/wsclean, model/spi and model/coherency. -/
def lShapeComp : Label := .name "shape-comp"

/-- `gaussian` (model/shape/dask.py:18-30). -/
noncomputable def daskGaussian (uvw frequency shapeParams : DArr ℝ) : Except PyErr (Lazy ℝ) :=
  blockwise [lSource, lRow, lChan] []
    [uvw.arg [lRow, lUvwComp], frequency.arg [lChan], shapeParams.arg [lSource, lShapeComp]] fun env out => do
    npGaussian (← (fetch env uvw [lRow, lUvwComp] out).firsts 1) (← (fetch env frequency [lChan] out).firsts 0)
      (← (fetch env shapeParams [lSource, lShapeComp] out).firsts 1)

/-- A label of the calls of `blockwise` in the dask.py of model/shape, model/spectral, model/wsclean, model/spi and model/coherency. -/
def lPol : Label := .name "pol"
/-- A label of the calls of `blockwise` in the dask.py of model/shape, model/spectral, model/wsclean, model/spi and model/coherency. -/
def lSpi : Label := .name "spi"

/-- `spectral_model` (model/spectral/dask.py:17-34). `blockwise` raises `ValueError` if the labels do not fit the number
of axes. The bases are handed to every block unchanged. -/
noncomputable def daskSpectralModel (stokes spi refFreq frequency : DArr ℝ) (base : Base) : Except PyErr (Lazy ℝ) :=
  match spi.chunks[1]? with
  | none => .error .indexError
  | some c =>
    if c.length ≠ 1 then .error .valueError
    else
      let polDim := if stokes.chunks.length = 1 then [] else [lPol]
      if stokes.chunks.length ≠ 1 + polDim.length ∨ spi.chunks.length ≠ 2 + polDim.length then .error .valueError
      else blockwise ([lSource, lChan] ++ polDim) []
        [stokes.arg ([lSource] ++ polDim), spi.arg ([lSource, lSpi] ++ polDim), refFreq.arg [lSource],
          frequency.arg [lChan]] fun env out => do
        npSpectralModel (← (fetch env stokes ([lSource] ++ polDim) out).firsts 0)
          (← (fetch env spi ([lSource, lSpi] ++ polDim) out).firsts 1) (← (fetch env refFreq [lSource] out).firsts 0)
          (← (fetch env frequency [lChan] out).firsts 0) base

/-- The arguments that `log_poly` contributes to `blockwise`: none if it is a boolean (model/wsclean/dask.py:20-31). -/
def LogArg.args : LogArg (DArr Bool) → List Arg
  | .array a => [a.arg [lSource]]
  | .bool _ => []

/-- What a block gets for `log_poly` (model/wsclean/dask.py:20-31). -/
def LogArg.fetch (env : Label → List Nat) (out : List (Label × Nat)) :
    LogArg (DArr Bool) → Except PyErr (LogArg (NArr Bool))
  | .array a => match (Verif.Dask.fetch env a [lSource] out).firsts 0 with
    | .error e => .error e
    | .ok v => .ok (.array v)
  | .bool b => .ok (.bool b)

/-- The whole argument (model/wsclean/dask.py:20-31). -/
def LogArg.whole : LogArg (DArr Bool) → LogArg (NArr Bool)
  | .array a => .array a.whole
  | .bool b => .bool b

/-- `spectra` (model/wsclean/dask.py:16-31) for fluxes with one axis. -/
noncomputable def daskSpectra (stokes spi : DArr ℝ) (logSi : LogArg (DArr Bool)) (refFreq frequency : DArr ℝ) :
    Except PyErr (Lazy ℝ) :=
  blockwise [lSource, lChan] []
    ([stokes.arg [lSource], spi.arg [lSource, lSpi]] ++ logSi.args ++ [refFreq.arg [lSource], frequency.arg [lChan]])
    fun env out => do
    npSpectra (← (fetch env stokes [lSource] out).firsts 0) (← (fetch env spi [lSource, lSpi] out).firsts 1)
      (← logSi.fetch env out) (← (fetch env refFreq [lSource] out).firsts 0)
      (← (fetch env frequency [lChan] out).firsts 0)

/-- A label of the calls of `blockwise` in the dask.py of model/shape, model/spectral, model/wsclean, model/spi and model/coherency. -/
def lVars : Label := .name "vars"
/-- A label of the calls of `blockwise` in the dask.py of model/shape, model/spectral, model/wsclean, model/spi and model/coherency. -/
def lComps : Label := .name "comps"

/-- An optional argument of `blockwise`: `None` has no labels (model/spi/dask.py:36-47). -/
def optArgs (labels : List Label) : Option (DArr ℝ) → List Arg
  | none => []
  | some a => [a.arg labels]

/-- What a block gets for an optional argument (model/spi/dask.py:36-47). -/
def optFetch (env : Label → List Nat) (out : List (Label × Nat)) (labels : List Label) (k : Nat) :
    Option (DArr ℝ) → Except PyErr (Option (NArr ℝ))
  | none => .ok none
  | some a => match (fetch env a labels out).firsts k with
    | .error e => .error e
    | .ok v => .ok (some v)

/-- `fit_spi_components` (model/spi/dask.py:18-47). -/
noncomputable def daskFitSpi (data weights freqs : DArr ℝ) (freq0 : ℝ) (alphai i0i beam : Option (DArr ℝ)) (tol : ℝ)
    (maxiter : Nat) (float64 : Option Bool) : Except PyErr (Lazy ℝ) :=
  blockwise [lVars, lComps] [(lVars, 4)]
    ([data.arg [lComps, lChan], weights.arg [lChan], freqs.arg [lChan]] ++ optArgs [lComps] alphai ++ optArgs [lComps] i0i ++
      optArgs [lComps, lChan] beam) fun env out => do
    npFitSpi (← (fetch env data [lComps, lChan] out).firsts 1) (← (fetch env weights [lChan] out).firsts 1)
      (← (fetch env freqs [lChan] out).firsts 1) freq0 (← optFetch env out [lComps] 0 alphai)
      (← optFetch env out [lComps] 0 i0i) (← optFetch env out [lComps, lChan] 1 beam) tol maxiter float64

/-- All block indices of some axes (model/coherency/dask.py:27-56). -/
def allBlocks : List (List Nat) → List (List Nat)
  | [] => [[]]
  | c :: cs => (List.range c.length).flatMap fun j => (allBlocks cs).map fun b => j :: b

/-- `a + b` of arrays of the same shape; unassigned memory stays arbitrary (model/coherency/dask.py:27-56). -/
noncomputable def addArrays (a b : NArr (Option ℂ)) : NArr (Option ℂ) :=
  ⟨a.shape, fun i => match a.val i, b.val i with
    | some x, some y => some (x + y)
    | _, _ => none⟩

/-- The sum of some blocks; an error in one is an error in the sum (model/coherency/dask.py:27-56). -/
noncomputable def sumBlocks : List (Except PyErr (NArr (Option ℂ))) → Except PyErr (NArr (Option ℂ))
  | [] => .error .valueError
  | [x] => x
  | x :: xs => do
    let s ← sumBlocks xs
    let a ← x
    pure (addArrays a s)

/-- `_wrapper` (model/coherency/dask.py:18-24): the conversion of one block. -/
noncomputable def convertTask (input : DArr ℂ) (labels : List Label) (mapping : List MapEntry) (nIn : Nat)
    (outShape : List Nat) (env : Label → List Nat) (out : List (Label × Nat)) : Except PyErr (NArr (Option ℂ)) := do
  convertImpl (← (fetch env input labels out).firsts 0) mapping nIn outShape

/-- `convert` (model/coherency/dask.py:27-56). The tasks' results carry an axis of length one for each axis of the input
schema; `res.sum(axis=...)` adds the tasks' results of all blocks of these axes and removes them: the axes are left out
here. -/
noncomputable def daskConvert (input : DArr ℂ) (inSchema outSchema : Schema) : Except PyErr (Lazy (Option ℂ)) := do
  let i ← elementIndices inSchema
  let m ← convertSetup (input.chunks.map List.sum) inSchema outSchema
  let nFree := input.chunks.length - i.2.length
  let freeDims := numberedLabels "dim" nFree
  let inDims := numberedLabels "icorr" i.2.length
  let outDims := numberedLabels "ocorr" m.2.length
  let res ← blockwise (freeDims ++ outDims ++ inDims) (outDims.zip m.2) [input.arg (freeDims ++ inDims)]
    (convertTask input (freeDims ++ inDims) m.1 i.2.length m.2)
  pure {
    chunks := res.chunks.take (nFree + m.2.length)
    block := fun b => sumBlocks ((allBlocks (res.chunks.drop (nFree + m.2.length))).map fun k => res.block (b ++ k)) }

end Verif.Dask
