/-
Model of `wsclean_predict` on arrays: africanus/rime/wsclean_predict.py and the dask version in
africanus/rime/dask_predict.py.
-/
import Verif.Dask.Sky

set_option autoImplicit false

namespace Verif.Dask

open Verif.Rime Verif.ModelData

/-! ### lazy results as arguments -/

/-- The block that holds element `x` of an axis, and the place of `x` there
(a part of the model of dask, for rime/dask_predict.py:469-499). -/
def locate : List Nat → Nat → Nat × Nat
  | [], x => (0, x)
  | c :: cs, x => if x < c then (0, x) else ((locate cs (x - c)).1 + 1, (locate cs (x - c)).2)

/-- The first exception among some results (a part of the model of dask, for rime/dask_predict.py:469-499). -/
def firstError {β : Type*} : List (Except PyErr β) → Option PyErr
  | [] => none
  | .error e :: _ => some e
  | .ok _ :: l => firstError l

/-- A lazy result that is an argument of another task. Part of the model of dask: every block has to be computed for
`compute()` of the final result, so an exception in one of them is an exception for the consumer (rime/dask_predict.py:469-499). -/
noncomputable def Lazy.assemble {α : Type*} [Inhabited α] (l : Lazy α) : Except PyErr (DArr α) :=
  match firstError ((allBlocks l.chunks).map l.block) with
  | some e => .error e
  | none => .ok ⟨l.chunks, fun i =>
      match l.block ((List.zipWith locate l.chunks i).map Prod.fst) with
      | .ok a => a.val ((List.zipWith locate l.chunks i).map Prod.snd)
      | .error _ => default⟩

/-- The elementwise sum of some results of the same shape; an exception in one is an exception of the sum (rime/dask_predict.py:469-499). -/
noncomputable def sumArrays {α : Type*} [Add α] : List (Except PyErr (NArr α)) → Except PyErr (NArr α)
  | [] => .error .valueError
  | [x] => x
  | x :: xs => do
    let s ← sumArrays xs
    let a ← x
    pure ⟨a.shape, fun i => a.val i + s.val i⟩

/-! ### wsclean_predict.py -/

/-- `vis[r, f, 0] += ...` for all rows and channels (wsclean_predict.py:36-48, 57-81). -/
noncomputable def addSource (nr nf : Nat) (g : Nat → Nat → ℂ) (vis : Nat → Nat → ℂ) : Nat → Nat → ℂ :=
  forRange nr vis fun r vis => forRange nf vis fun f vis =>
    Function.update vis r (Function.update (vis r) f (vis r f + g r f))

/-- One iteration of the loop over sources (wsclean_predict.py:30-84); `emaj, emin, angle = gauss_shape[s]` checks the
length `c` of the shape parameters. -/
noncomputable def wsStep (uvw lm : NArr ℝ) (sourceType : NArr String) (gaussShape frequency spectrum : NArr ℝ)
    (nr nf c s : Nat) (vis : Nat → Nat → ℂ) : Except PyErr (Nat → Nat → ℂ) :=
  if sourceType.val [s] = "POINT" then
    .ok (addSource nr nf (fun r f => wsPoint (lm.val [s, 0]) (lm.val [s, 1]) (uvw.val [r, 0]) (uvw.val [r, 1])
      (uvw.val [r, 2]) (frequency.val [f]) (spectrum.val [s, f])) vis)
  else if sourceType.val [s] = "GAUSSIAN" then
    if c ≠ 3 then .error .valueError
    else .ok (addSource nr nf (fun r f => wsGauss (lm.val [s, 0]) (lm.val [s, 1]) (uvw.val [r, 0]) (uvw.val [r, 1])
      (uvw.val [r, 2]) (frequency.val [f]) (spectrum.val [s, f]) (gaussShape.val [s, 0]) (gaussShape.val [s, 1])
      (gaussShape.val [s, 2])) vis)
  else .error .valueError

/-- `wsclean_predict_impl` (wsclean_predict.py:16-86). Reads past the end of `lm`, `uvw` or `source_type`, which numba does
not check, are not modelled. -/
noncomputable def wsBody (uvw lm : NArr ℝ) (sourceType : NArr String) (gaussShape frequency spectrum : NArr ℝ) :
    Except PyErr (NArr ℂ) :=
  match uvw.shape, gaussShape.shape, frequency.shape, spectrum.shape with
  | [nr, _], [_, c], [nf], [ns, _] =>
    match forRangeM ns (fun _ _ => (0 : ℂ)) (wsStep uvw lm sourceType gaussShape frequency spectrum nr nf c) with
    | .error e => .error e
    | .ok vis => .ok ⟨[nr, nf, 1], fun i => match i with
      | [r, f, _] => vis r f
      | _ => 0⟩
  | _, _, _, _ => .error .typeError

/-- `wsclean_predict` (wsclean_predict.py:89-102). -/
noncomputable def npWscleanPredict (uvw lm : NArr ℝ) (sourceType : NArr String) (flux coeffs : NArr ℝ)
    (logPoly : LogArg (NArr Bool)) (refFreq gaussShape frequency : NArr ℝ) : Except PyErr (NArr ℂ) := do
  let spectrum ← npSpectra flux coeffs logPoly refFreq frequency
  wsBody uvw lm sourceType gaussShape frequency spectrum

/-! ### the dask version -/

/-- A label of rime/dask_predict.py:469-499. -/
def lCorr : Label := .name "corr"
/-- A label of rime/dask_predict.py:469-499. -/
def lGauss : Label := .name "gauss"
/-- A label of rime/dask_predict.py:469-499. -/
def lUvw : Label := .name "uvw"
/-- A label of rime/dask_predict.py:469-499. -/
def lLmComp : Label := .name "lm"

/-- `wsclean_body_wrapper` (dask_predict.py:462-466) for one output block, the spectrum being the first call's result. The
leading axis of length one that the wrapper adds is left out, see `daskWscleanPredict`. -/
noncomputable def wsTask (uvw lm : DArr ℝ) (sourceType : DArr String) (gaussShape frequency : DArr ℝ) (spectrum : Lazy ℝ)
    (env : Label → List Nat) (out : List (Label × Nat)) : Except PyErr (NArr ℂ) := do
  let sp ← spectrum.assemble
  wsBody (← (fetch env uvw [lRow, lUvw] out).firsts 1) (← (fetch env lm [lSource, lLmComp] out).firsts 1)
    (← (fetch env sourceType [lSource] out).firsts 0) (← (fetch env gaussShape [lSource, lGauss] out).firsts 1)
    (← (fetch env frequency [lChan] out).firsts 0) (← (fetch env sp [lSource, lChan] out).firsts 0)

/-- `wsclean_predict` (dask_predict.py:469-499). `log_poly.dtype` of a boolean raises `AttributeError`. The spectra are
computed as by `spectra` of model/wsclean/dask.py, with the labels `source`, `comp` and `chan` (the name of the
contracted label makes no difference). `vis.sum(axis=0)` adds the results of all source blocks. -/
noncomputable def daskWscleanPredict (uvw lm : DArr ℝ) (sourceType : DArr String) (flux coeffs : DArr ℝ)
    (logPoly : LogArg (DArr Bool)) (refFreq gaussShape frequency : DArr ℝ) : Except PyErr (Lazy ℂ) :=
  match logPoly with
  | .bool _ => .error .attributeError
  | .array _ =>
    match daskSpectra flux coeffs logPoly refFreq frequency with
    | .error e => .error e
    | .ok spectrum =>
      match blockwise [lSource, lRow, lChan, lCorr] [(lCorr, 1)]
          [uvw.arg [lRow, lUvw], lm.arg [lSource, lLmComp], sourceType.arg [lSource], gaussShape.arg [lSource, lGauss],
            frequency.arg [lChan], ([lSource, lChan], spectrum.chunks)]
          (wsTask uvw lm sourceType gaussShape frequency spectrum) with
      | .error e => .error e
      | .ok vis => .ok {
          chunks := vis.chunks.drop 1
          block := fun b => sumArrays ((List.range (vis.chunks.headD []).length).map fun k => vis.block (k :: b)) }

end Verif.Dask
