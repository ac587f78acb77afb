/-
A model of what the CUDA kernels of africanus rely on: launches, blocks and threads, shared memory with one barrier, and
arrays on the device.

This is a model of a dependency (CUDA and cupy), not of /repo. Threads of a block run in any order between barriers, blocks
run in any order; a thread that has returned no longer counts for `__syncthreads`. Shared memory and `cupy.empty` hold
arbitrary values before they are written. Indices of C type `int` do not overflow; reads outside of arrays are whatever the
memory holds there.
-/
import Verif.Util.Shapes
import Mathlib.Data.List.Forall2

set_option autoImplicit false

namespace Verif.Cuda

/-! ### arrays on the device -/

/-- An array on the device: extents, strides and start in units of elements, and the memory it lies in
(a part of the model of the GPU and of cupy, used for the kernels launched in rime/cuda/phase.py:64-76, rime/cuda/feeds.py:65-79, rime/cuda/predict.py:105-198, rime/cuda/beam.py:145-203 and model/coherency/cuda/conversion.py:189-216). -/
structure GArr (α : Type*) where
  shape : List Nat
  strides : List Int
  base : Int
  mem : Int → α

variable {α : Type*}

/-- The offset of an element
(a part of the model of the GPU and of cupy, used for the kernels launched in rime/cuda/phase.py:64-76, rime/cuda/feeds.py:65-79, rime/cuda/predict.py:105-198, rime/cuda/beam.py:145-203 and model/coherency/cuda/conversion.py:189-216). -/
def offset : List Int → List Nat → Int
  | s :: ss, i :: is => s * i + offset ss is
  | _, _ => 0

/-- `a[i, j, ...]`, and `CArray::operator[]` of a list of indices
(a part of the model of the GPU and of cupy, used for the kernels launched in rime/cuda/phase.py:64-76, rime/cuda/feeds.py:65-79, rime/cuda/predict.py:105-198, rime/cuda/beam.py:145-203 and model/coherency/cuda/conversion.py:189-216). -/
def GArr.at (a : GArr α) (i : List Nat) : α := a.mem (a.base + offset a.strides i)

/-- `(&a[0])[k]`: the element `k` places after the first in memory, whatever the strides are
(a part of the model of the GPU and of cupy, used for the kernels launched in rime/cuda/phase.py:64-76, rime/cuda/feeds.py:65-79, rime/cuda/predict.py:105-198, rime/cuda/beam.py:145-203 and model/coherency/cuda/conversion.py:189-216). -/
def GArr.ptr (a : GArr α) (k : Nat) : α := a.mem (a.base + k)

/-- The number of elements of the trailing axes
(a part of the model of the GPU and of cupy, used for the kernels launched in rime/cuda/phase.py:64-76, rime/cuda/feeds.py:65-79, rime/cuda/predict.py:105-198, rime/cuda/beam.py:145-203 and model/coherency/cuda/conversion.py:189-216). -/
def size : List Nat → Nat
  | [] => 1
  | n :: ns => n * size ns

/-- The position of an element in the order of the last index first
(a part of the model of the GPU and of cupy, used for the kernels launched in rime/cuda/phase.py:64-76, rime/cuda/feeds.py:65-79, rime/cuda/predict.py:105-198, rime/cuda/beam.py:145-203 and model/coherency/cuda/conversion.py:189-216). -/
def ravel : List Nat → List Nat → Nat
  | _ :: ns, i :: is => i * size ns + ravel ns is
  | _, _ => 0

/-- The indices of the element at a position (inverse of `ravel`)
(a part of the model of the GPU and of cupy, used for the kernels launched in rime/cuda/phase.py:64-76, rime/cuda/feeds.py:65-79, rime/cuda/predict.py:105-198, rime/cuda/beam.py:145-203 and model/coherency/cuda/conversion.py:189-216). -/
def unravel : List Nat → Nat → List Nat
  | [], _ => []
  | _ :: ns, k => k / size ns :: unravel ns (k % size ns)

/-- `CArray::operator[]` of one number: the element at that position in the order of the last index first, found through the
strides
(a part of the model of the GPU and of cupy, used for the kernels launched in rime/cuda/phase.py:64-76, rime/cuda/feeds.py:65-79, rime/cuda/predict.py:105-198, rime/cuda/beam.py:145-203 and model/coherency/cuda/conversion.py:189-216). -/
def GArr.flat (a : GArr α) (k : Nat) : α := a.at (unravel a.shape k)

/-- The position of `CArray::operator[]` of one number, that number being any integer (C++ division rounds towards zero)
(a part of the model of the GPU and of cupy, used for the kernels launched in rime/cuda/phase.py:64-76, rime/cuda/feeds.py:65-79, rime/cuda/predict.py:105-198, rime/cuda/beam.py:145-203 and model/coherency/cuda/conversion.py:189-216). -/
def stepOffset : List Nat → List Int → Int → Int
  | _ :: n :: ns, s :: ss, k => s * (k.tdiv (size (n :: ns))) + stepOffset (n :: ns) ss (k.tmod (size (n :: ns)))
  | [_], s :: _, k => s * k
  | _, _, _ => 0

/-- `CArray::operator[]` of one number, which may lie outside the array
(a part of the model of the GPU and of cupy, used for the kernels launched in rime/cuda/phase.py:64-76, rime/cuda/feeds.py:65-79, rime/cuda/predict.py:105-198, rime/cuda/beam.py:145-203 and model/coherency/cuda/conversion.py:189-216). -/
def GArr.flatInt (a : GArr α) (k : Int) : α := a.mem (a.base + stepOffset a.shape a.strides k)

/-- The value of a C++ `int` after the assignment of a larger number: the residue between `-2^31` and `2^31 - 1`
(a part of the model of the GPU and of cupy, used for the kernels launched in rime/cuda/phase.py:64-76, rime/cuda/feeds.py:65-79, rime/cuda/predict.py:105-198, rime/cuda/beam.py:145-203 and model/coherency/cuda/conversion.py:189-216). -/
def wrap32 (k : Nat) : Int := Int.bmod k (2 ^ 32)

/-- Element `c` of the vector at the address of `a[k]`, `k` being one number: `reinterpret_cast<const T2 *>(&a[k])`. The strides
are used to find the address only
(a part of the model of the GPU and of cupy, used for the kernels launched in rime/cuda/phase.py:64-76, rime/cuda/feeds.py:65-79, rime/cuda/predict.py:105-198, rime/cuda/beam.py:145-203 and model/coherency/cuda/conversion.py:189-216). -/
def GArr.vecInt (a : GArr α) (k : Int) (c : Nat) : α := a.mem (a.base + stepOffset a.shape a.strides k + c)

/-- Indices of an array with these extents
(a part of the model of the GPU and of cupy, used for the kernels launched in rime/cuda/phase.py:64-76, rime/cuda/feeds.py:65-79, rime/cuda/predict.py:105-198, rime/cuda/beam.py:145-203 and model/coherency/cuda/conversion.py:189-216). -/
def IsIdx (shape i : List Nat) : Prop := List.Forall₂ (· < ·) i shape

/-- The elements lie one after the other in memory (`c_contiguous`)
(a part of the model of the GPU and of cupy, used for the kernels launched in rime/cuda/phase.py:64-76, rime/cuda/feeds.py:65-79, rime/cuda/predict.py:105-198, rime/cuda/beam.py:145-203 and model/coherency/cuda/conversion.py:189-216). -/
def GArr.Contiguous (a : GArr α) : Prop := ∀ i, IsIdx a.shape i → offset a.strides i = ravel a.shape i

/-- The strides of a contiguous array, in elements
(a part of the model of the GPU and of cupy, used for the kernels launched in rime/cuda/phase.py:64-76, rime/cuda/feeds.py:65-79, rime/cuda/predict.py:105-198, rime/cuda/beam.py:145-203 and model/coherency/cuda/conversion.py:189-216). -/
def cStrides : List Nat → List Int
  | [] => []
  | _ :: shape => (size shape : Int) :: cStrides shape

/-- A contiguous array
(a part of the model of the GPU and of cupy, used for the kernels launched in rime/cuda/phase.py:64-76, rime/cuda/feeds.py:65-79, rime/cuda/predict.py:105-198, rime/cuda/beam.py:145-203 and model/coherency/cuda/conversion.py:189-216). -/
def GArr.dense {α : Type*} (shape : List Nat) (mem : Int → α) : GArr α := ⟨shape, cStrides shape, 0, mem⟩

/-- `a.reshape(shape)`: the elements in the same order (a view or a copy)
(a part of the model of the GPU and of cupy, used for the kernels launched in rime/cuda/phase.py:64-76, rime/cuda/feeds.py:65-79, rime/cuda/predict.py:105-198, rime/cuda/beam.py:145-203 and model/coherency/cuda/conversion.py:189-216). -/
def GArr.reshape (a : GArr α) (shape : List Nat) : GArr α := .dense shape fun k => a.flat k.toNat

/-! ### launches -/

/-- `dim3`
(a part of the model of the GPU and of cupy, used for the kernels launched in rime/cuda/phase.py:64-76, rime/cuda/feeds.py:65-79, rime/cuda/predict.py:105-198, rime/cuda/beam.py:145-203 and model/coherency/cuda/conversion.py:189-216). -/
structure Dim3 where
  x : Nat
  y : Nat
  z : Nat
  deriving DecidableEq, Repr

/-- All indices
(a part of the model of the GPU and of cupy, used for the kernels launched in rime/cuda/phase.py:64-76, rime/cuda/feeds.py:65-79, rime/cuda/predict.py:105-198, rime/cuda/beam.py:145-203 and model/coherency/cuda/conversion.py:189-216). -/
def Dim3.all (d : Dim3) : List Dim3 :=
  (List.range d.x).flatMap fun x => (List.range d.y).flatMap fun y => (List.range d.z).map fun z => ⟨x, y, z⟩

/-- Limits of a launch (CUDA C programming guide, compute capability 3.0 and later): grids are not empty and have at most
2^31 - 1 by 65535 by 65535 blocks
(a part of the model of the GPU and of cupy, used for the kernels launched in rime/cuda/phase.py:64-76, rime/cuda/feeds.py:65-79, rime/cuda/predict.py:105-198, rime/cuda/beam.py:145-203 and model/coherency/cuda/conversion.py:189-216). -/
def Dim3.launchable (d : Dim3) : Bool :=
  0 < d.x && 0 < d.y && 0 < d.z && d.x < 2 ^ 31 && d.y < 65536 && d.z < 65536

/-- Writes to memory, in the order in which they happen
(a part of the model of the GPU and of cupy, used for the kernels launched in rime/cuda/phase.py:64-76, rime/cuda/feeds.py:65-79, rime/cuda/predict.py:105-198, rime/cuda/beam.py:145-203 and model/coherency/cuda/conversion.py:189-216). -/
def writeAll {C V : Type*} [DecidableEq C] (m : C → V) (ws : List (C × V)) : C → V :=
  ws.foldl (fun m w => Function.update m w.1 w.2) m

/-- A kernel with one barrier: what each thread writes to shared memory before the barrier, and to the output after it. A
thread that has returned writes nothing
(a part of the model of the GPU and of cupy, used for the kernels launched in rime/cuda/phase.py:64-76, rime/cuda/feeds.py:65-79, rime/cuda/predict.py:105-198, rime/cuda/beam.py:145-203 and model/coherency/cuda/conversion.py:189-216). -/
structure Kernel (S V O W : Type*) where
  load : (block thread : Dim3) → List (S × V)
  body : (block thread : Dim3) → (S → V) → List (O × W)

variable {S V O W : Type*} [DecidableEq S] [DecidableEq O]

/-- A possible outcome of running a kernel: shared memory of every block starts with arbitrary values, the writes before the
barrier and the writes to the output happen in any order
(a part of the model of the GPU and of cupy, used for the kernels launched in rime/cuda/phase.py:64-76, rime/cuda/feeds.py:65-79, rime/cuda/predict.py:105-198, rime/cuda/beam.py:145-203 and model/coherency/cuda/conversion.py:189-216). -/
def Runs (k : Kernel S V O W) (grid block : Dim3) (out : O → W) : Prop :=
  ∃ (init shared : Dim3 → S → V) (out0 : O → W) (ws : List (O × W)),
    (∀ b ∈ grid.all, ∃ w : List (S × V), w.Perm (block.all.flatMap (k.load b)) ∧ shared b = writeAll (init b) w) ∧
    ws.Perm (grid.all.flatMap fun b => block.all.flatMap fun t => k.body b t (shared b)) ∧
    out = writeAll out0 ws

/-- A possible result of launching a kernel: `CUDADriverError`, which is a `RuntimeError`, for an impossible grid
(a part of the model of the GPU and of cupy, used for the kernels launched in rime/cuda/phase.py:64-76, rime/cuda/feeds.py:65-79, rime/cuda/predict.py:105-198, rime/cuda/beam.py:145-203 and model/coherency/cuda/conversion.py:189-216). -/
def Launch (k : Kernel S V O W) (grid block : Dim3) (r : Except PyErr (O → W)) : Prop :=
  if grid.launchable then ∃ out, r = .ok out ∧ Runs k grid block out else r = .error .runtimeError

/-- The grid as a `dim3`; `grids` is that of util/cuda.py. -/
def gridOf (dims block : Dim3) : Except PyErr Dim3 :=
  match Verif.Util.grids [dims.x, dims.y, dims.z] [block.x, block.y, block.z] with
  | .ok [x, y, z] => .ok ⟨x.toNat, y.toNat, z.toNat⟩
  | .ok _ => .error .valueError
  | .error e => .error e

/-- `kernel(grids(dims, block), block, ...)` (util/cuda.py:73-97 and rime/cuda/phase.py:66-71). -/
def LaunchOver (k : Kernel S V O W) (dims block : Dim3) (r : Except PyErr (O → W)) : Prop :=
  match gridOf dims block with
  | .error e => r = .error e
  | .ok grid => Launch k grid block r

/-! ### kernels with two steps before the barrier -/

/-- A kernel in which threads write shared memory, then some of them read it and write more before the barrier
(a part of the model of the GPU and of cupy, used for the kernels launched in rime/cuda/phase.py:64-76, rime/cuda/feeds.py:65-79, rime/cuda/predict.py:105-198, rime/cuda/beam.py:145-203 and model/coherency/cuda/conversion.py:189-216). -/
structure Kernel2 (S V O W : Type*) where
  first : (block thread : Dim3) → List (S × V)
  rest : (memory : Dim3 → S → V) → Kernel S V O W

/-- A possible outcome. The writes of the first step come before those of the second, as if there were a barrier between
them
(a part of the model of the GPU and of cupy, used for the kernels launched in rime/cuda/phase.py:64-76, rime/cuda/feeds.py:65-79, rime/cuda/predict.py:105-198, rime/cuda/beam.py:145-203 and model/coherency/cuda/conversion.py:189-216). -/
def Runs2 (k : Kernel2 S V O W) (grid block : Dim3) (out : O → W) : Prop :=
  ∃ (init mid shared : Dim3 → S → V) (out0 : O → W) (ws : List (O × W)),
    (∀ b ∈ grid.all, ∃ w : List (S × V), w.Perm (block.all.flatMap (k.first b)) ∧ mid b = writeAll (init b) w) ∧
    (∀ b ∈ grid.all, ∃ w : List (S × V), w.Perm (block.all.flatMap ((k.rest mid).load b)) ∧ shared b = writeAll (mid b) w) ∧
    ws.Perm (grid.all.flatMap fun b => block.all.flatMap fun t => (k.rest mid).body b t (shared b)) ∧
    out = writeAll out0 ws

/-- `kernel(grids(dims, block), block, ...)` (util/cuda.py:73-97 and rime/cuda/beam.py:192-198). -/
def LaunchOver2 (k : Kernel2 S V O W) (dims block : Dim3) (r : Except PyErr (O → W)) : Prop :=
  match gridOf dims block with
  | .error e => r = .error e
  | .ok grid => if grid.launchable then ∃ out, r = .ok out ∧ Runs2 k grid block out else r = .error .runtimeError

end Verif.Cuda
