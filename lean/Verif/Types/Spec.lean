/-
What the theorems about element types say, apart from the model: which types can be cast to which, what it means for the
types of a Dask function to be right, and what the C types and the functions of CUDA are.
-/
import Verif.Types.DType

set_option autoImplicit false

namespace Verif.Types

open DT

/-- `numpy.can_cast(a, b, 'safe')`, by the table in NumPy's documentation. -/
def canCast : DT → DT → Bool
  | .bool, _ => true
  | .int8, b => b ∈ [int8, int16, int32, int64, float32, float64, complex64, complex128]
  | .int16, b => b ∈ [int16, int32, int64, float32, float64, complex64, complex128]
  | .int32, b => b ∈ [int32, int64, float64, complex128]
  | .int64, b => b ∈ [int64, float64, complex128]
  | .uint8, b => b ∈ [uint8, uint16, uint32, uint64, int16, int32, int64, float32, float64, complex64, complex128]
  | .uint16, b => b ∈ [uint16, uint32, uint64, int32, int64, float32, float64, complex64, complex128]
  | .uint32, b => b ∈ [uint32, uint64, int64, float64, complex128]
  | .uint64, b => b ∈ [uint64, float64, complex128]
  | .float32, b => b ∈ [float32, float64, complex64, complex128]
  | .float64, b => b ∈ [float64, complex128]
  | .complex64, b => b ∈ [complex64, complex128]
  | .complex128, b => b ∈ [complex128]

/-- The element type of an argument that is an array. -/
def Arg.type : Arg → Option DT
  | .ndarray d => some d
  | .numbaArray d => some d
  | .daskArray d => some d
  | .other => none

/-- The number of bytes of an element. -/
def itemsize : DT → Nat
  | .bool => 1
  | .int8 => 1
  | .uint8 => 1
  | .int16 => 2
  | .uint16 => 2
  | .int32 => 4
  | .uint32 => 4
  | .float32 => 4
  | .int64 => 8
  | .uint64 => 8
  | .float64 => 8
  | .complex64 => 8
  | .complex128 => 16

/-- What the bits of an element mean. -/
inductive Kind
  | boolean | signed | unsigned | real | complex
  deriving DecidableEq

/-- The kind of a type. -/
def kind : DT → Kind
  | .bool => .boolean
  | .int8 | .int16 | .int32 | .int64 => .signed
  | .uint8 | .uint16 | .uint32 | .uint64 => .unsigned
  | .float32 | .float64 => .real
  | .complex64 | .complex128 => .complex

/-- The types of CUDA C++: their kind and size. -/
def cType : String → Option (Kind × Nat)
  | "bool" => some (.boolean, 1)
  | "char" => some (.signed, 1)
  | "short" => some (.signed, 2)
  | "int" => some (.signed, 4)
  | "long long" => some (.signed, 8)
  | "unsigned char" => some (.unsigned, 1)
  | "unsigned short" => some (.unsigned, 2)
  | "unsigned int" => some (.unsigned, 4)
  | "unsigned long long" => some (.unsigned, 8)
  | "float" => some (.real, 4)
  | "double" => some (.real, 8)
  | "float2" => some (.complex, 8)
  | "double2" => some (.complex, 16)
  | _ => none

/-- The functions of CUDA C++: the operation and the type it is done in. -/
def cFunction : String → Option (String × DT)
  | "fabs" => some ("abs", float64)
  | "fabsf" => some ("abs", float32)
  | "cos" => some ("cos", float64)
  | "cosf" => some ("cos", float32)
  | "sin" => some ("sin", float64)
  | "sinf" => some ("sin", float32)
  | "sincos" => some ("sincos", float64)
  | "sincosf" => some ("sincos", float32)
  | "sincospi" => some ("sincospi", float64)
  | "sincospif" => some ("sincospi", float32)
  | "sqrt" => some ("sqrt", float64)
  | "sqrtf" => some ("sqrt", float32)
  | "rsqrt" => some ("rsqrt", float64)
  | "rsqrtf" => some ("rsqrt", float32)
  | "floor" => some ("floor", float64)
  | "floorf" => some ("floor", float32)
  | "fmax" => some ("max", float64)
  | "fmaxf" => some ("max", float32)
  | "fmin" => some ("min", float64)
  | "fminf" => some ("min", float32)
  | "make_double2" => some ("make2", float64)
  | "make_float2" => some ("make2", float32)
  | _ => none

/-- `d` is the type of numbers that are complex when some of the arguments are, and of double precision when some of them
are. -/
def Covers (args : List DT) (d : DT) : Prop :=
  d.isInexact = true ∧
    (d.isComplex = true ↔ ∃ a ∈ args, a.isComplex = true) ∧
    (d.needsDouble = true ↔ ∃ a ∈ args, a.needsDouble = true)

/-- The types of a Dask function are right: what is declared is what is computed, and what NumPy gives. The exceptions are
the same, too. -/
structure Agree (declared block array : Except PyErr DT) : Prop where
  computed : declared = block
  numpy : declared = array

/-- All the types that are there are floating point types. -/
def PredictArgs.Inexact (a : PredictArgs) : Prop :=
  ∀ o ∈ [a.dde1, a.coh, a.dde2, a.die1, a.base, a.die2], ∀ d ∈ o, d.isInexact = true

/-- Jones matrices come in pairs, as `predict_checks` demands. -/
def PredictArgs.Paired (a : PredictArgs) : Prop :=
  a.dde1.isSome = a.dde2.isSome ∧ a.die1.isSome = a.die2.isSome

/-- The Jones matrices and coherencies, without the base visibilities. -/
def PredictArgs.gains (a : PredictArgs) : List DT :=
  [a.dde1, a.coh, a.dde2, a.die1, a.die2].filterMap id

end Verif.Types
