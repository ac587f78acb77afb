/-
Model of the generators of kernels for the GPU and of the keys under which their results are kept.

The text of a kernel is a function of the values that are passed to the template; a generator returns these values here
(strings, in the order of the call), the block and the element type of the result. Arrays appear with their element type
and shape.
-/
import Verif.Types.DType
import Verif.Rime.Model
import Verif.Cuda.Convert

set_option autoImplicit false

namespace Verif.Types

open DT

/-- What generators see of an array (rime/cuda/predict.py:40-101). -/
structure Arr where
  dtype : DT
  shape : List Nat

/-- `a.ndim` (rime/cuda/predict.py:40-101). -/
def Arr.ndim (a : Arr) : Nat := a.shape.length

/-- The result of a generator: the arguments of the template, the block and the type of the result (rime/cuda/predict.py:40-101). -/
structure Kernel where
  template : List String
  block : Nat × Nat × Nat
  dtype : DT
  deriving DecidableEq

/-- Calls of a function decorated with `memoize_on_key` one after the other (util/code.py:107-115), with the cache at the
start. Concurrent calls are the subject of C57. -/
def memoRun {A K V : Type} [DecidableEq K] (key : A → K) (gen : A → Except PyErr V) :
    List (K × V) → List A → List (Except PyErr V)
  | _, [] => []
  | cache, a :: calls =>
    match cache.lookup (key a) with
    | some v => .ok v :: memoRun key gen cache calls
    | none =>
      match gen a with
      | .ok v => .ok v :: memoRun key gen ((key a, v) :: cache) calls
      | .error e => .error e :: memoRun key gen cache calls

/-- Arguments of the generator of `phase_delay` (rime/cuda/phase.py:34-60). -/
structure PhaseArgs where
  lm : Arr
  uvw : Arr
  frequency : Arr

/-- `_key_fn` (rime/cuda/phase.py:26-27). -/
def phaseKey (a : PhaseArgs) : DT × DT × DT := (a.lm.dtype, a.uvw.dtype, a.frequency.dtype)

/-- `_generate_kernel` (rime/cuda/phase.py:33-60). `typename` is CuPy's `get_typename`. -/
def phaseGen (typename : DT → Except PyErr String) (a : PhaseArgs) : Except PyErr Kernel := do
  let out ← resultType [a.lm.dtype, a.uvw.dtype, a.frequency.dtype]
  let x := if a.frequency.dtype = float32 then 32 else 16
  let y := if a.uvw.dtype = float32 then 32 else 16
  let lmType ← typename a.lm.dtype
  let uvwType ← typename a.uvw.dtype
  let freqType ← typename a.frequency.dtype
  let outType ← typename out
  let sqrt ← cudaFunction "sqrt" a.lm.dtype
  let sincos ← cudaFunction "sincos" out
  let dtype ← resultType [out, complex64]
  .ok ⟨[lmType, uvwType, freqType, outType, sqrt, sincos, toString x, toString y], (x, y, 1), dtype⟩

/-- Arguments of the generator of `feed_rotation` (rime/cuda/feeds.py:36-61). -/
structure FeedArgs where
  parallacticAngles : Arr
  feedType : String

/-- `_key_fn` (rime/cuda/feeds.py:31-32). -/
def feedKey (a : FeedArgs) : DT × String := (a.parallacticAngles.dtype, a.feedType)

/-- `_generate_kernel` (rime/cuda/feeds.py:36-61). -/
def feedGen (typename : DT → Except PyErr String) (a : FeedArgs) : Except PyErr Kernel := do
  let dtype := a.parallacticAngles.dtype
  let block ← if dtype = float32 then Except.ok (1024, 1, 1)
    else if dtype = float64 then .ok (512, 1, 1)
    else .error .typeError
  let sincos ← cudaFunction "sincos" dtype
  let paType ← typename dtype
  let outType ← typename dtype
  let out ← resultType [dtype, complex64]
  .ok ⟨[a.feedType, sincos, paType, outType], block, out⟩

/-- Arguments of the generator of the interpolation of frequencies (rime/cuda/beam.py:40-56). -/
structure InterpArgs where
  beamFreqMap : Arr
  frequencies : Arr

/-- `_freq_interp_key` (rime/cuda/beam.py:35-36). -/
def interpKey (a : InterpArgs) : DT × DT := (a.beamFreqMap.dtype, a.frequencies.dtype)

/-- `_generate_interp_kernel` (rime/cuda/beam.py:39-55). -/
def interpGen (typename : DT → Except PyErr String) (a : InterpArgs) : Except PyErr Kernel := do
  let bf ← typename a.beamFreqMap.dtype
  let f ← typename a.frequencies.dtype
  let dtype ← resultType [a.beamFreqMap.dtype, a.frequencies.dtype]
  .ok ⟨["128", "1024", bf, f], (1024, 1, 1), dtype⟩

/-- Arguments of the generator of `beam_cube_dde` (rime/cuda/beam.py:73-141). -/
structure MainArgs where
  beam : Arr
  beamLmExt : Arr
  beamFreqMap : Arr
  lm : Arr
  parangles : Arr
  pointingErrors : Arr
  antennaScaling : Arr
  frequencies : Arr
  ddeDims : Nat
  ncorr : Nat

/-- `_main_key_fn` (rime/cuda/beam.py:58-64); the types and the numbers are in one list each. -/
def mainKey (a : MainArgs) : List DT × List Nat :=
  ([a.beam.dtype, a.beamLmExt.dtype, a.beamFreqMap.dtype, a.lm.dtype, a.parangles.dtype, a.pointingErrors.dtype,
    a.antennaScaling.dtype, a.frequencies.dtype], [a.beam.ndim, a.ddeDims, a.ncorr])

/-- `_corr_shifter` (rime/cuda/beam.py:69). -/
def corrShifter : Nat → Option Nat
  | 4 => some 2
  | 2 => some 1
  | 1 => some 0
  | _ => none

/-- `_generate_main_kernel` (rime/cuda/beam.py:72-141); the beam has at least three axes. -/
def mainGen (typename : DT → Except PyErr String) (a : MainArgs) : Except PyErr Kernel := do
  let lw := a.beam.shape.getD 0 0
  let mh := a.beam.shape.getD 1 0
  let nud := a.beam.shape.getD 2 0
  if lw < 2 ∨ mh < 2 ∨ nud < 2 then .error .valueError
  else
    let block ← if a.beam.dtype = complex64 then Except.ok (32, 32, 1)
      else if a.beam.dtype = complex128 then .ok (32, 16, 1)
      else .error .typeError
    match corrShifter a.ncorr with
    | none => .error .valueError
    | some shift =>
      let coord ← resultType [a.beamLmExt.dtype, a.lm.dtype, a.parangles.dtype, a.pointingErrors.dtype,
        a.antennaScaling.dtype, float32]
      if coord = float32 ∨ coord = float64 then
        let functions ← [("make2", a.beam.dtype.realOf), ("sqrt", a.beam.dtype.realOf), ("rsqrt", a.beam.dtype.realOf),
          ("floor", coord), ("min", coord), ("max", coord), ("cos", coord), ("sin", coord)].mapM
            fun x => cudaFunction x.1 x.2
        let types ← [a.beam.dtype.realOf, coord, a.beamLmExt.dtype, a.beamFreqMap.dtype, a.lm.dtype, a.parangles.dtype,
          a.pointingErrors.dtype, a.antennaScaling.dtype, a.frequencies.dtype].mapM typename
        .ok ⟨[toString shift, toString a.ncorr, toString a.beam.ndim, toString a.ddeDims] ++ functions ++ types, block,
          a.beam.dtype⟩
      else .error .assertionError

/-- Arguments of the generator of `predict_vis`: the indices, the matrices, the shape of the correlations and the number of
axes of the result (rime/cuda/predict.py:40-101). -/
structure PredictGenArgs where
  timeIndex : Arr
  antenna1 : Arr
  antenna2 : Arr
  dde1 : Option Arr
  coh : Option Arr
  dde2 : Option Arr
  die1 : Option Arr
  base : Option Arr
  die2 : Option Arr
  corrs : List Nat
  outNdim : Nat

/-- The element of the key for one array: its type and number of axes; `None` stands for itself
(rime/cuda/predict.py:34-36). -/
def keyOf (a : Option Arr) : Option (DT × Nat) := a.map fun x => (x.dtype, x.ndim)

/-- `_key_fn` (rime/cuda/predict.py:32-36). -/
def predictKey (a : PredictGenArgs) : List (Option (DT × Nat)) × List Nat × Nat :=
  ([some a.timeIndex, some a.antenna1, some a.antenna2, a.dde1, a.coh, a.dde2, a.die1, a.base, a.die2].map keyOf,
    a.corrs, a.outNdim)

/-- `have`, type and number of axes of one array for the template (rime/cuda/predict.py:77-95). -/
def predictTemplate (a : Option Arr) : Except PyErr (List String) := do
  let t ← cudaTypeOrInt (a.map Arr.dtype)
  .ok [toString a.isSome, t, toString (match a with | some x => x.ndim | none => 1)]

/-- `_generate_kernel` (rime/cuda/predict.py:39-101). -/
def predictGen (a : PredictGenArgs) : Except PyErr Kernel := do
  let _ ← Rime.predictChecks ⟨a.dde1.map Arr.ndim, a.coh.map Arr.ndim, a.dde2.map Arr.ndim, a.die1.map Arr.ndim,
    a.base.map Arr.ndim, a.die2.map Arr.ndim⟩
  if a.timeIndex.dtype ≠ int32 ∨ a.antenna1.dtype ≠ int32 ∨ a.antenna2.dtype ≠ int32 then .error .typeError
  else
    let out ← resultType ([a.dde1, a.coh, a.dde2, a.die1, a.base, a.die2].map fun o => (o.map Arr.dtype).getD float64)
    let y := if out = complex128 then 24 else 32
    let arrays ← [a.dde1, a.dde2, a.coh, a.die1, a.base, a.die2].mapM predictTemplate
    let outType ← cudaType out
    .ok ⟨[toString y] ++ arrays.flatten ++ [outType, toString (a.corrs.foldl (· * ·) 1), toString a.outNdim],
      (32, y, 1), out⟩

/-- Arguments of the generator of `convert` (model/coherency/cuda/conversion.py:126-185). -/
structure ConvertGenArgs where
  dtype : Cuda.ConvType
  shape : List Nat
  inSchema : ModelData.Schema
  outSchema : ModelData.Schema

end Verif.Types
