/-
Model of the CUDA version of `convert`: africanus/model/coherency/cuda/conversion.py and conversion.cu.j2. Floating point
numbers are real numbers; integer types, whose arithmetic wraps around in C++, are not modelled.
-/
import Verif.Cuda.Machine
import Verif.Util.Cycles
import Verif.ModelData.Coherency
import Mathlib.Logic.Function.Basic

set_option autoImplicit false

namespace Verif.Cuda

open Verif.ModelData

/-! ### generating the kernel -/

/-- `"real"` or `"complex"` (model/coherency/cuda/conversion.py:54-106). -/
inductive OutKind
  | real
  | complex
  deriving DecidableEq

/-- Types of arrays; `other` stands for those without an entry in `numpy_to_cuda_type_map` (model/coherency/cuda/conversion.py:125-185). -/
inductive ConvType
  | float32
  | float64
  | complex64
  | complex128
  | other
  deriving DecidableEq

/-- `np.iscomplexobj` (model/coherency/cuda/conversion.py:54-106). -/
def ConvType.isComplex : ConvType → Bool
  | .complex64 => true
  | .complex128 => true
  | _ => false

/-- `make_float2(x, y)` and `make_double2(x, y)` (model/coherency/cuda/conversion.py:188-216). -/
def make2 (x y : ℝ) : ℂ := ⟨x, y⟩

/-- A number of a real type (model/coherency/cuda/conversion.py:188-216). -/
def scalar (x : ℝ) : ℂ := ⟨x, 0⟩

/-- `stokes_conv` (cuda/conversion.py:29-51), alternatives in order. Elements of real types are the real parts, `.x` and `.y`
are real and imaginary parts. -/
noncomputable def gpuConv (okey : String) : Option (List ((String × String) × OutKind × (ℂ → ℂ → ℂ))) :=
  match okey with
  | "RR" => some [(("I", "V"), .complex, fun i v => make2 (i.re + v.re) 0)]
  | "RL" => some [(("Q", "U"), .complex, fun q u => make2 q.re u.re)]
  | "LR" => some [(("Q", "U"), .complex, fun q u => make2 q.re (-u.re))]
  | "LL" => some [(("I", "V"), .complex, fun i v => make2 (i.re - v.re) 0)]
  | "XX" => some [(("I", "Q"), .complex, fun i q => make2 (i.re + q.re) 0)]
  | "XY" => some [(("U", "V"), .complex, fun u v => make2 u.re v.re)]
  | "YX" => some [(("U", "V"), .complex, fun u v => make2 u.re (-v.re))]
  | "YY" => some [(("I", "Q"), .complex, fun i q => make2 (i.re - q.re) 0)]
  | "I" => some [(("XX", "YY"), .real, fun xx yy => scalar ((xx.re + yy.re) / 2)),
                 (("RR", "LL"), .real, fun rr ll => scalar ((rr.re + ll.re) / 2))]
  | "Q" => some [(("XX", "YY"), .real, fun xx yy => scalar ((xx.re - yy.re) / 2)),
                 (("RL", "LR"), .real, fun rl lr => scalar ((rl.re + lr.re) / 2))]
  | "U" => some [(("XY", "YX"), .real, fun xy yx => scalar ((xy.re + yx.re) / 2)),
                 (("RL", "LR"), .real, fun rl lr => scalar ((rl.im - lr.im) / 2))]
  | "V" => some [(("XY", "YX"), .real, fun xy yx => scalar ((xy.im - yx.im) / 2)),
                 (("RR", "LL"), .real, fun rr ll => scalar ((rr.re - ll.re) / 2))]
  | _ => none

/-- The search for an alternative (cuda/conversion.py:74-91). -/
noncomputable def gpuFind (inputs : List (String × List Nat)) (outIdx : List Nat) :
    List ((String × String) × OutKind × (ℂ → ℂ → ℂ)) → Option (OutKind × MapEntry)
  | [] => none
  | ((c1, c2), kind, fn) :: rest =>
    match indexOf? inputs c1 with
    | none => gpuFind inputs outIdx rest
    | some i1 =>
      match indexOf? inputs c2 with
      | none => gpuFind inputs outIdx rest
      | some i2 => some (kind, i1, i2, outIdx, fn)

/-- The loop over outputs (cuda/conversion.py:64-100). -/
noncomputable def gpuMapping (inputs : List (String × List Nat)) :
    List (String × List Nat) → List (OutKind × MapEntry) → Except PyErr (List (OutKind × MapEntry))
  | [], mapping => .ok mapping
  | (okey, outIdx) :: rest, mapping =>
    match gpuConv okey with
    | none => .error .valueError
    | some deps =>
      match gpuFind inputs outIdx deps with
      | none => .error .missingConversionInputs
      | some e => gpuMapping inputs rest (mapping ++ [e])

/-- What the generated kernel is made of; the memoized result of `_generate_kernel` (cuda/conversion.py:125-185). -/
structure ConvPlan where
  kind : OutKind
  mapping : List MapEntry
  inShape : List Nat
  outShape : List Nat

/-- `_generate_kernel` (cuda/conversion.py:125-185) with `stokes_convert_setup` (54-106). `generated` says that a kernel for
the same schemas and type exists, which is then used without looking at the shape of the input again (cuda/conversion.py:116-125).
`dtypes[0]` of nothing raises `IndexError`; `np.ravel_multi_index` raises `ValueError` for indices shorter than the shape
(`_element_indices_and_shape` keeps the others in range), and the template refuses lengths that are not powers of two. -/
noncomputable def convertPlan (generated : Bool) (t : ConvType) (shape : List Nat) (inSchema outSchema : Schema) :
    Except PyErr ConvPlan := do
  let i ← elementIndices inSchema
  let o ← elementIndices outSchema
  if !generated && shape.drop (shape.length - i.2.length) != i.2 then throw .valueError
  let mapping ← gpuMapping i.1 o.1 []
  match mapping with
  | [] => throw .indexError
  | (kind, _) :: rest =>
    if rest.any (fun e => e.1 != kind) then throw .valueError
    if size i.2 != size o.2 then throw .valueError
    if t = .other then throw .valueError
    if mapping.any (fun e => e.2.1.length != i.2.length || e.2.2.1.length != i.2.length || e.2.2.2.1.length != o.2.length) then
      throw .valueError
    match Util.Cycles.warpTranspose (size i.2) (fun _ _ => ()) with
    | .error e => throw e
    | .ok _ => pure ⟨kind, mapping.map Prod.snd, i.2, o.2⟩

/-! ### the kernel -/

/-- The registers after the data has been read in (conversion.cu.j2:24-35), by the thread for `source`. `mulup` and `upper` are
`nsrcmulup` and `upper`, `junk` is what the registers hold before. -/
def readRegs {α : Type} (elements : Nat) (mulup upper : Int) (inputs : GArr α) (junk : Nat → α) (source : Nat) : Nat → α :=
  (forRange elements ((source : Int), junk) fun elem s =>
    if s.1 < upper then (s.1 + mulup, Function.update s.2 elem (inputs.flatInt s.1)) else s).2

/-- The assignments (conversion.cu.j2:40-42, cuda/conversion.py:160-170). -/
noncomputable def assignRegs (p : ConvPlan) (input : Nat → ℂ) (junk : Nat → ℂ) : Nat → ℂ :=
  p.mapping.foldl (fun out e => Function.update out (ravel p.outShape e.2.2.1)
    (e.2.2.2 (input (ravel p.inShape e.1)) (input (ravel p.inShape e.2.1)))) junk

/-- The writes (conversion.cu.j2:47-59). -/
def writeRegs {α : Type} (elements : Nat) (mulup upper : Int) (out : Nat → α) (source : Nat) : List (Int × α) :=
  (forRange elements ((source : Int), []) fun elem s =>
    if s.1 < upper then (s.1 + mulup, s.2 ++ [(s.1, out elem)]) else s).2

/-- The block (cuda/conversion.py:181-183). -/
def convertBlock : Dim3 := ⟨512, 1, 1⟩

/-- The kernel (conversion.cu.j2:5-60). `nsrcmulup` and `upper` are assigned to `int`s. Groups of as many adjacent threads as
there are elements transpose together: `regs` are the registers of the threads of the group. An output cell is the number that
indexes the output. -/
noncomputable def convertKernel (p : ConvPlan) (inputs : GArr ℂ) (junkIn junkOut : Nat → Nat → ℂ) :
    Kernel Empty ℂ Int ℂ where
  load _ _ := []
  body b t _ :=
    let elements := size p.inShape
    let nsrc := inputs.shape.getD 0 0
    let mulup := wrap32 (elements * ((nsrc + (elements - 1)) / elements))
    let upper := wrap32 (elements * nsrc)
    let source := b.x * convertBlock.x + t.x
    if mulup ≤ source then []
    else
      let first := source - t.x % elements
      let regs : Nat → Nat → ℂ := fun lane =>
        readRegs elements mulup upper inputs (junkIn (first + lane)) (first + lane)
      match Util.Cycles.warpTranspose elements regs with
      | .error _ => []
      | .ok regs =>
        let out : Nat → Nat → ℂ := fun lane => assignRegs p (regs lane) (junkOut (first + lane))
        match Util.Cycles.warpTranspose elements out with
        | .error _ => []
        | .ok out => writeRegs elements mulup upper (out (t.x % elements)) source

/-! ### the host -/

/-- `a.reshape(shape)` is some array with the same elements in the same order; it is contiguous if `a` is, otherwise it may be
a view that is not. If the extents stay the same it is a view with the strides of `a` (model/coherency/cuda/conversion.py:188-216). -/
def Reshaped {α : Type} (a : GArr α) (shape : List Nat) (r : GArr α) : Prop :=
  r.shape = shape ∧ (∀ k < size shape, r.flat k = a.flat k) ∧ (a.Contiguous → r.Contiguous) ∧ (a.shape = shape → r = a)

/-- Whether the generated text is a program: `in[i] + in[j]` is not defined for `float2` and `double2`, `in[i].x` not for
`float` and `double`. The expressions for complex outputs are of the first form, those for real outputs of the second
(cuda/conversion.py:29-51). -/
def compiles (t : ConvType) (kind : OutKind) : Bool := t.isComplex == (kind == .real)

/-- Possible results of `convert` (cuda/conversion.py:188-216): extents and elements. -/
def ConvertGpu (generated : Bool) (t : ConvType) (a : GArr ℂ) (inSchema outSchema : Schema)
    (r : Except PyErr (GArr ℂ)) : Prop :=
  match convertPlan generated t a.shape inSchema outSchema with
  | .error e => r = .error e
  | .ok p =>
    let lead := a.shape.take (a.shape.length - p.inShape.length)
    if size lead * size p.inShape ≠ size a.shape then r = .error .valueError
    else ∃ inputs, Reshaped a [size lead, size p.inShape] inputs ∧
      ((¬ inputs.Contiguous ∧ r = .error .assertionError) ∨
       (inputs.Contiguous ∧ compiles t p.kind = false ∧ r = .error .compileException) ∨
       (inputs.Contiguous ∧ compiles t p.kind = true ∧ ∃ junkIn junkOut out,
          LaunchOver (convertKernel p inputs junkIn junkOut) ⟨size lead, 1, 1⟩ convertBlock out ∧
          r = out.map fun o => .dense (lead ++ p.outShape) o))

end Verif.Cuda
