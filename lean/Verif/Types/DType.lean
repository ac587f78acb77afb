/-
Element types of arrays and how the code chooses them.

The types are those of NumPy that the package handles: booleans, integers of one to eight bytes, and real and complex
floating point numbers of two precisions. `numpy.result_type` is a function of the package's dependency NumPy; `promote`
and `resultType` follow its documented table. Arrays of no dimensions, whose values older NumPy versions inspect, are not
modelled.
-/
import Verif.Basic

set_option autoImplicit false

namespace Verif.Types

/-- The element types
(a part of the model of NumPy, for the types computed e.g. in util/type_inference.py:14-27 and model/spectral/spec_model.py:98-100). -/
inductive DT
  | bool
  | int8 | int16 | int32 | int64
  | uint8 | uint16 | uint32 | uint64
  | float32 | float64
  | complex64 | complex128
  deriving DecidableEq, Repr

namespace DT

/-- Bytes of a signed integer type
(a part of the model of NumPy, for the types computed e.g. in util/type_inference.py:14-27 and model/spectral/spec_model.py:98-100). -/
def signedSize : DT → Option Nat
  | int8 => some 1
  | int16 => some 2
  | int32 => some 4
  | int64 => some 8
  | _ => none

/-- Bytes of an unsigned integer type
(a part of the model of NumPy, for the types computed e.g. in util/type_inference.py:14-27 and model/spectral/spec_model.py:98-100). -/
def unsignedSize : DT → Option Nat
  | uint8 => some 1
  | uint16 => some 2
  | uint32 => some 4
  | uint64 => some 8
  | _ => none

/-- The type is complex
(a part of the model of NumPy, for the types computed e.g. in util/type_inference.py:14-27 and model/spectral/spec_model.py:98-100). -/
def isComplex : DT → Bool
  | complex64 => true
  | complex128 => true
  | _ => false

/-- Floating point, real or complex
(a part of the model of NumPy, for the types computed e.g. in util/type_inference.py:14-27 and model/spectral/spec_model.py:98-100). -/
def isInexact : DT → Bool
  | float32 => true
  | float64 => true
  | complex64 => true
  | complex128 => true
  | _ => false

/-- Arithmetic with numbers of this type and floating point numbers needs double precision: the type has double
precision itself, or its integers have more than sixteen bits
(a part of the model of NumPy, for the types computed e.g. in util/type_inference.py:14-27 and model/spectral/spec_model.py:98-100). -/
def needsDouble : DT → Bool
  | int32 => true
  | int64 => true
  | uint32 => true
  | uint64 => true
  | float64 => true
  | complex128 => true
  | _ => false

/-- The floating point type of the given precision and kind
(a part of the model of NumPy, for the types computed e.g. in util/type_inference.py:14-27 and model/spectral/spec_model.py:98-100). -/
def inexact (double complex : Bool) : DT :=
  match double, complex with
  | false, false => float32
  | true, false => float64
  | false, true => complex64
  | true, true => complex128

/-- The signed integer type of at least so many bytes
(a part of the model of NumPy, for the types computed e.g. in util/type_inference.py:14-27 and model/spectral/spec_model.py:98-100). -/
def signedOfSize (n : Nat) : DT :=
  if n ≤ 1 then int8 else if n ≤ 2 then int16 else if n ≤ 4 then int32 else int64

/-- `numpy.promote_types`: two types give the type of their sum. An unsigned and a signed integer need a signed one that
is larger than the unsigned one, and a floating point number when there is none
(a part of the model of NumPy, for the types computed e.g. in util/type_inference.py:14-27 and model/spectral/spec_model.py:98-100). -/
def promote (a b : DT) : DT :=
  if a = b then a
  else if a.isInexact || b.isInexact then
    inexact (a.needsDouble || b.needsDouble) (a.isComplex || b.isComplex)
  else match a.signedSize, a.unsignedSize, b.signedSize, b.unsignedSize with
    | some m, _, some n, _ => if m ≤ n then b else a
    | _, some m, _, some n => if m ≤ n then b else a
    | some m, _, _, some n => if n < m then a else if n < 8 then signedOfSize (2 * n) else float64
    | _, some n, some m, _ => if n < m then b else if n < 8 then signedOfSize (2 * n) else float64
    | none, none, _, _ => b
    | _, _, none, none => a

/-- `x.real.dtype`
(a part of the model of NumPy, for the types computed e.g. in util/type_inference.py:14-27 and model/spectral/spec_model.py:98-100). -/
def realOf : DT → DT
  | complex64 => float32
  | complex128 => float64
  | d => d

/-- The type of `numpy.sum` of an array: booleans and small integers are added in eight bytes
(a part of the model of NumPy, for the types computed e.g. in util/type_inference.py:14-27 and model/spectral/spec_model.py:98-100). -/
def sumType (d : DT) : DT :=
  if d = bool || d.signedSize.isSome then int64
  else if d.unsignedSize.isSome then uint64
  else d

end DT

open DT

/-- `numpy.result_type`: the types are promoted one after the other; without arguments it raises `ValueError`. (NumPy
since 1.20 promotes 16-bit integers of both signs that are mixed with float32 together with the float32.)
(a part of the model of NumPy, for the types computed e.g. in util/type_inference.py:14-27 and model/spectral/spec_model.py:98-100). -/
def resultType : List DT → Except PyErr DT
  | [] => .error .valueError
  | d :: ds => .ok (ds.foldl promote d)

/-- The arguments that `infer_complex_dtype` can be called with: NumPy arrays, Numba's types of arrays, Dask arrays, and
anything else (util/type_inference.py:13-22). -/
inductive Arg
  | ndarray (d : DT)
  | numbaArray (d : DT)
  | daskArray (d : DT)
  | other

/-- `_numpy_dtype` (util/type_inference.py:13-22). Without Dask `dask_array` is an `object()` (util/type_inference.py:4-7)
and the third `isinstance` raises `TypeError`. The names that Numba gives to its types are those of NumPy. -/
def numpyDtype (haveDask : Bool) : Arg → Except PyErr DT
  | .ndarray d => .ok d
  | .numbaArray d => .ok d
  | .daskArray d => if haveDask then .ok d else .error .typeError
  | .other => if haveDask then .error .valueError else .error .typeError

/-- `infer_complex_dtype` (util/type_inference.py:25-27). -/
def inferComplexDtype (haveDask : Bool) (args : List Arg) : Except PyErr DT := do
  let ds ← args.mapM (numpyDtype haveDask)
  resultType (complex64 :: ds)

/-! ## What the Dask functions declare, what their blocks are, and what the NumPy functions return

For a function `f` the definitions `f.declared`, `f.block` and `f.array` give the element type that the Dask array carries,
that of the blocks that are computed, and that of the result of the function on NumPy arrays.
`da.sum` passes the declared type to the sums of the blocks, so its blocks always have the declared type. -/

/-- `phase_delay` on Dask arrays (rime/dask.py:34-42). -/
def phaseDelayDeclared (lm uvw frequency : DT) : Except PyErr DT :=
  inferComplexDtype true [.daskArray lm, .daskArray uvw, .daskArray frequency]

/-- `phase_delay` on NumPy arrays, which is also what computes the blocks (rime/phase.py:12-27): the types are those that
Numba infers. -/
def phaseDelayArray (lm uvw frequency : DT) : Except PyErr DT :=
  inferComplexDtype true [.numbaArray lm, .numbaArray uvw, .numbaArray frequency]

/-- `feed_rotation` on Dask arrays (rime/dask.py:65-77). -/
def feedRotationDeclared (pa : DT) : Except PyErr DT :=
  if pa = float32 then .ok complex64
  else if pa = float64 then .ok complex128
  else .error .valueError

/-- `feed_rotation` on NumPy arrays and on blocks (rime/feeds.py:59-70). -/
def feedRotationArray (pa : DT) : Except PyErr DT :=
  if pa = float32 then .ok complex64
  else if pa = float64 then .ok complex128
  else .error .valueError

/-- The backends of `parallactic_angles` (rime/parangles.py:20, 63-75). -/
inductive Backend
  | casa | astropy | test

/-- `parallactic_angles` on Dask arrays (rime/dask.py:50-57). -/
def parallacticAnglesDeclared (_backend : Backend) (times _positions : DT) : DT := times

/-- `parallactic_angles` on NumPy arrays and on blocks (rime/parangles.py:62-75): casacore gives Python floats, which
`np.asarray` makes float64 (rime/parangles_casa.py:48-59); astropy calculates in float64; the test backend multiplies the
times by the sum over the coordinates of the positions. -/
def parallacticAnglesArray : Backend → DT → DT → DT
  | .casa, _, _ => float64
  | .astropy, _, _ => float64
  | .test, times, positions => promote times positions.sumType

/-- `transform_sources` on Dask arrays (rime/dask.py:88-104); the argument `dtype` may be `None`. -/
def transformSourcesDeclared (dtype : Option DT) : DT :=
  match dtype with
  | none => float64
  | some d => d

/-- `transform_sources` on NumPy arrays (rime/transform.py:92-93). -/
def transformSourcesArray (dtype : Option DT) : DT := dtype.getD float64

/-- The blocks of `transform_sources`: the type that was declared is passed to the NumPy function
(rime/dask.py:80-84, 104). -/
def transformSourcesBlock (dtype : Option DT) : DT := transformSourcesArray (some (transformSourcesDeclared dtype))

/-- `gaussian` on Dask arrays (model/shape/dask.py:24-30). -/
def gaussianDeclared (uvw frequency shapeParams : DT) : Except PyErr DT :=
  resultType [uvw, frequency, shapeParams]

/-- `gaussian` on NumPy arrays and on blocks (model/shape/gaussian_shape.py:18-26). -/
def gaussianArray (uvw frequency shapeParams : DT) : Except PyErr DT :=
  resultType [uvw, frequency, shapeParams]

/-- `spectral_model` on Dask arrays (model/spectral/dask.py:34). -/
def spectralModelDeclared (stokes _spi _refFreq _frequency : DT) : Except PyErr DT := .ok stokes

/-- `spectral_model` on NumPy arrays and on blocks (model/spectral/spec_model.py:98-100, 159). -/
def spectralModelArray (stokes spi refFreq frequency : DT) : Except PyErr DT :=
  resultType [stokes, spi, refFreq, frequency]

/-- `spectra` of WSClean models on Dask arrays (model/wsclean/dask.py:31). -/
def spectraDeclared (stokes _coeffs _refFreq _frequency : DT) : Except PyErr DT := .ok stokes

/-- `spectra` on NumPy arrays and on blocks (model/wsclean/spec_model.py:62-64, 77). -/
def spectraArray (stokes coeffs refFreq frequency : DT) : Except PyErr DT :=
  resultType [stokes, coeffs, refFreq, frequency]

/-- The argument types of `wsclean_predict` that its result depends on (rime/wsclean_predict.py:89-102). -/
structure WscleanArgs where
  uvw : DT
  lm : DT
  flux : DT
  coeffs : DT
  logPoly : DT
  refFreq : DT
  frequency : DT

/-- `wsclean_predict` on Dask arrays (rime/dask_predict.py:472-499): the type of the spectrum, that of the visibilities, and
the type of their sum over the blocks of sources. -/
def wscleanPredictDeclared (a : WscleanArgs) : Except PyErr DT := do
  let spectrum ← resultType [a.flux, a.coeffs, a.logPoly, a.refFreq, a.frequency]
  let out ← resultType [a.uvw, a.lm, a.frequency, spectrum, complex64]
  .ok out.sumType

/-- The blocks of `wsclean_predict`: `out_dtype` is passed to the function that allocates the visibilities
(rime/dask_predict.py:463-466, 494; rime/wsclean_predict.py:28), then they are added in the type of the sum. -/
def wscleanPredictBlock (a : WscleanArgs) : Except PyErr DT := do
  let spectrum ← resultType [a.flux, a.coeffs, a.logPoly, a.refFreq, a.frequency]
  let out ← resultType [a.uvw, a.lm, a.frequency, spectrum, complex64]
  .ok out.sumType

/-- `wsclean_predict` on NumPy arrays (rime/wsclean_predict.py:92-100). -/
def wscleanPredictArray (a : WscleanArgs) : Except PyErr DT :=
  resultType [complex64, a.uvw, a.lm, a.flux, a.coeffs, a.refFreq, a.frequency]

/-- `corrupt_vis` on Dask arrays (calibration/utils/dask.py:70). -/
def corruptVisDeclared (_jones model : DT) : DT := model

/-- `corrupt_vis` on NumPy arrays and on blocks (calibration/utils/corrupt_vis.py:74). -/
def corruptVisArray (_jones model : DT) : DT := model

/-- `compute_and_corrupt_vis` on Dask arrays (calibration/utils/dask.py:131). -/
def computeAndCorruptVisDeclared (_jones model : DT) : DT := model

/-- `compute_and_corrupt_vis` on NumPy arrays and on blocks (calibration/utils/compute_and_corrupt_vis.py:92). -/
def computeAndCorruptVisArray (jones _model : DT) : DT := jones

/-- `correct_vis` and `residual_vis` on Dask arrays (calibration/utils/dask.py:176, 227). -/
def correctVisDeclared (vis _jones : DT) : DT := vis

/-- `correct_vis` and `residual_vis` on NumPy arrays and on blocks (calibration/utils/correct_vis.py:88;
calibration/utils/residual_vis.py:78). -/
def correctVisArray (vis _jones : DT) : DT := vis

/-- `compute_jhj` on Dask arrays (calibration/phase_only/dask.py:40). -/
def computeJhjDeclared (_jones model : DT) : DT := model

/-- `compute_jhj` on NumPy arrays and on blocks (calibration/phase_only/phase_only.py:91). -/
def computeJhjArray (jones _model : DT) : DT := jones.realOf

/-- `compute_jhr` on Dask arrays (calibration/phase_only/dask.py:67). -/
def computeJhrDeclared (_jones model : DT) : DT := model

/-- `compute_jhr` on NumPy arrays and on blocks (calibration/phase_only/phase_only.py:131). -/
def computeJhrArray (jones _model : DT) : DT := jones

/-- `im_to_vis` on NumPy arrays (dft/kernels.py:18-23, 38). -/
def imToVisArray (image uvw lm frequency : DT) (dtype : Option DT) : Except PyErr DT :=
  match dtype with
  | none => resultType [complex64, image, uvw, lm, frequency]
  | some d => .ok d

/-- `im_to_vis` on Dask arrays (dft/dask.py:26-48); the default of `dtype` is `np.complex128`. -/
def imToVisDeclared (_image _uvw _lm _frequency : DT) (dtype : Option DT) : Except PyErr DT :=
  .ok (dtype.getD complex128)

/-- The blocks of `im_to_vis` (dft/dask.py:20-22, 48). -/
def imToVisBlock (image uvw lm frequency : DT) (dtype : Option DT) : Except PyErr DT :=
  imToVisArray image uvw lm frequency (some (dtype.getD complex128))

/-- `vis_to_im` on NumPy arrays (dft/kernels.py:69-83, 101). The test for a complex `dtype` (dft/kernels.py:80-81) asks
whether Numba's type of the argument is that of complex numbers; the argument is a type, so the test is false. -/
def visToImArray (vis uvw lm frequency : DT) (dtype : Option DT) : Except PyErr DT :=
  match dtype with
  | none => resultType [vis.realOf, uvw, lm, frequency]
  | some d => .ok d

/-- `vis_to_im` on Dask arrays (dft/dask.py:60-87): the default of `dtype` is `np.float64`, and the blocks of rows are
added. -/
def visToImDeclared (_vis _uvw _lm _frequency : DT) (dtype : Option DT) : Except PyErr DT :=
  .ok (dtype.getD float64).sumType

/-- The blocks of `vis_to_im` (dft/dask.py:51-56, 82-86). -/
def visToImBlock (vis uvw lm frequency : DT) (dtype : Option DT) : Except PyErr DT := do
  let _ ← visToImArray vis uvw lm frequency (some (dtype.getD float64))
  .ok (dtype.getD float64).sumType

/-- `dirty` of the wgridder on Dask arrays (gridding/wgridder/dask.py:90-93, 131-134): `real_type` is not assigned for
other types. -/
def wgridderDirtyDeclared (vis : DT) : Except PyErr DT :=
  if vis = complex128 then .ok float64
  else if vis = complex64 then .ok float32
  else .error .unboundLocalError

/-- `dirty` of the wgridder on NumPy arrays and on blocks (gridding/wgridder/vis2im.py:23-30). -/
def wgridderDirtyArray (vis : DT) : Except PyErr DT :=
  if vis = complex64 then .ok float32
  else if vis = complex128 then .ok float64
  else .error .valueError

/-! ## `predict_vis` -/

/-- The types of the Jones matrices of `predict_vis`; any may be absent (rime/predict.py:430-503). -/
structure PredictArgs where
  dde1 : Option DT
  coh : Option DT
  dde2 : Option DT
  die1 : Option DT
  base : Option DT
  die2 : Option DT

/-- `np.result_type(*(a.dtype for a in arrays if a is not None))` (rime/predict.py:430-503). -/
def resultTypePresent (l : List (Option DT)) : Except PyErr DT := resultType (l.filterMap id)

/-- `predict_vis` on NumPy arrays (rime/predict.py:442-447). -/
def predictArray (a : PredictArgs) : Except PyErr DT :=
  resultTypePresent [a.dde1, a.coh, a.dde2, a.die1, a.base, a.die2]

/-- `out_dtype` of `predict_vis` on Dask arrays (rime/dask_predict.py:406-409). -/
def predictOutDtype (a : PredictArgs) : Except PyErr DT :=
  resultTypePresent [a.dde1, a.coh, a.dde2, a.die1, a.die2]

/-- There are source coherencies to sum (rime/dask_predict.py:412). -/
def PredictArgs.haveSources (a : PredictArgs) : Bool := a.coh.isSome || (a.dde1.isSome && a.dde2.isSome)

/-- There is something to apply after the sum (rime/dask_predict.py:438). -/
def PredictArgs.haveMore (a : PredictArgs) : Bool := (a.die1.isSome && a.die2.isSome) || a.base.isSome

/-- What the Dask array that `predict_vis` returns is declared as (rime/dask_predict.py:222, 299-302, 350-351, 406-455). -/
def predictDeclared (streams : Bool) (a : PredictArgs) : Except PyErr DT := do
  let out ← predictOutDtype a
  if a.haveMore then .ok out
  else if a.haveSources then .ok (if streams then out else out.sumType)
  else .error .assertionError

/-- The type of the visibilities after the last of `n + 1` blocks of sources when they are added in a stream: each call of
the NumPy function gets the result of the last one as base visibilities (rime/dask_predict.py:106-150, 190-207). -/
def streamType (dde1 coh dde2 : Option DT) : Nat → Except PyErr DT
  | 0 => predictArray ⟨dde1, coh, dde2, none, none, none⟩
  | n + 1 => do
    let prev ← streamType dde1 coh dde2 n
    predictArray ⟨dde1, coh, dde2, none, some prev, none⟩

/-- The type of the blocks of the sum over the sources: a stream, or blocks that are added in the declared type
(rime/dask_predict.py:174-302). -/
def sumCoherenciesBlock (streams : Bool) (lastSource : Nat) (out : DT) (a : PredictArgs) : Except PyErr DT :=
  if streams then streamType a.dde1 a.coh a.dde2 lastSource
  else do
    let _ ← predictArray ⟨a.dde1, a.coh, a.dde2, none, none, none⟩
    .ok out.sumType

/-- The type of the blocks that are computed (rime/dask_predict.py:411-455). `lastSource + 1` is the number of blocks of
sources. -/
def predictBlock (streams : Bool) (lastSource : Nat) (a : PredictArgs) : Except PyErr DT := do
  let out ← predictOutDtype a
  if a.haveSources then
    let s ← sumCoherenciesBlock streams lastSource out a
    if a.haveMore then
      match a.base with
      | none => predictArray ⟨none, none, none, a.die1, some s, a.die2⟩
      | some b => predictArray ⟨none, none, none, a.die1, some (promote b s), a.die2⟩
    else .ok s
  else if a.haveMore then predictArray ⟨none, none, none, a.die1, a.base, a.die2⟩
  else .error .assertionError

/-! ## The functions for the GPU -/

/-- `cuda_fns` (util/cuda.py:24-52). -/
def cudaFns : DT → Option (List (String × String))
  | float32 => some
    [("abs", "fabsf"), ("cos", "cosf"), ("floor", "floorf"), ("make2", "make_float2"), ("max", "fmaxf"),
     ("min", "fminf"), ("rsqrt", "rsqrtf"), ("sqrt", "sqrtf"), ("sin", "sinf"), ("sincos", "sincosf"),
     ("sincospi", "sincospif")]
  | float64 => some
    [("abs", "fabs"), ("cos", "cos"), ("floor", "floor"), ("make2", "make_double2"), ("max", "fmax"),
     ("min", "fmin"), ("rsqrt", "rsqrt"), ("sin", "sin"), ("sincos", "sincos"),
     ("sincospi", "sincospi"), ("sqrt", "sqrt")]
  | _ => none

/-- `cuda_function` (util/cuda.py:100-109). -/
def cudaFunction (name : String) (d : DT) : Except PyErr String :=
  match cudaFns d with
  | none => .error .valueError
  | some m =>
    match m.lookup name with
    | none => .error .valueError
    | some f => .ok f

/-- `numpy_to_cuda_type_map` and `cuda_type` (util/cuda.py:54-71, 112-119). -/
def cudaType : DT → Except PyErr String
  | int8 => .ok "char"
  | uint8 => .ok "unsigned char"
  | int16 => .ok "short"
  | uint16 => .ok "unsigned short"
  | int32 => .ok "int"
  | uint32 => .ok "unsigned int"
  | float32 => .ok "float"
  | float64 => .ok "double"
  | complex64 => .ok "float2"
  | complex128 => .ok "double2"
  | _ => .error .valueError

/-- `phase_delay` on the GPU (rime/cuda/phase.py:33-60, 65-68). -/
def phaseDelayGpu (lm uvw frequency : DT) : Except PyErr DT := do
  let out ← resultType [lm, uvw, frequency]
  let _ ← cudaFunction "sqrt" lm
  let _ ← cudaFunction "sincos" out
  resultType [out, complex64]

/-- `feed_rotation` on the GPU (rime/cuda/feeds.py:36-61, 71). -/
def feedRotationGpu (pa : DT) : Except PyErr DT := do
  if pa = float32 ∨ pa = float64 then
    let _ ← cudaFunction "sincos" pa
    resultType [pa, complex64]
  else .error .typeError

/-- `beam_cube_dde` on the GPU (rime/cuda/beam.py:87-94, 118-120, 191). -/
def beamGpu (beam : DT) : Except PyErr DT := do
  if beam = complex64 ∨ beam = complex128 then
    let _ ← cudaFunction "make2" beam.realOf
    let _ ← cudaFunction "sqrt" beam.realOf
    let _ ← cudaFunction "rsqrt" beam.realOf
    .ok beam
  else .error .typeError

/-- `beam_cube_dde` on NumPy arrays (rime/fast_beam_cubes.py:96). -/
def beamArray (beam : DT) : Except PyErr DT := .ok beam

/-- `cuda_type(a) if have_a else "int"` (rime/cuda/predict.py:78-95). -/
def cudaTypeOrInt : Option DT → Except PyErr String
  | none => .ok "int"
  | some d => cudaType d

/-- `predict_vis` on the GPU (rime/cuda/predict.py:40-101, 180): the six arrays are passed to `np.result_type` whether they
are there or not, and NumPy takes `None` for float64. The indices have the type int32. -/
def predictGpu (a : PredictArgs) : Except PyErr DT := do
  let out ← resultType [a.dde1.getD float64, a.coh.getD float64, a.dde2.getD float64,
                        a.die1.getD float64, a.base.getD float64, a.die2.getD float64]
  let _ ← cudaTypeOrInt a.dde1
  let _ ← cudaTypeOrInt a.dde2
  let _ ← cudaTypeOrInt a.coh
  let _ ← cudaTypeOrInt a.die1
  let _ ← cudaTypeOrInt a.base
  let _ ← cudaTypeOrInt a.die2
  let _ ← cudaType out
  .ok out

end Verif.Types
