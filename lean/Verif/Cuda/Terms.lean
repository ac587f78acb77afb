/-
Model of the CUDA versions of `phase_delay` and `feed_rotation`: africanus/rime/cuda/phase.py, phase.cu.j2, feeds.py and
feeds.cu.j2; and of the jax version of `phase_delay`, africanus/rime/jax/phase.py. Floating point numbers are real numbers,
and the indices of threads do not overflow (there are fewer than `2^31` rows and channels).
-/
import Verif.Cuda.Machine
import Verif.Rime.ModelTerms

set_option autoImplicit false

namespace Verif.Cuda

open Verif.Rime

/-! ### phase_delay -/

/-- Shared memory of the kernel (phase.cu.j2:33-36): component `c` of `shared.uvw[y]`, and `shared.frequency[x]`. -/
inductive PhaseShared
  | uvw (y c : Nat)
  | frequency (x : Nat)
  deriving DecidableEq

/-- The guard (phase.cu.j2:21-22). -/
def phaseOutside (uvw frequency : GArr ℝ) (row chan : Nat) : Bool :=
  uvw.shape.getD 0 0 ≤ row || frequency.shape.getD 0 0 ≤ chan

/-- The value for one source (phase.cu.j2:49-61). -/
noncomputable def phaseValue (lx ly u v w freq : ℝ) : ℂ :=
  let n := Real.sqrt (1 - lx * lx - ly * ly) - 1
  let realPhase := lx * u + ly * v + n * w
  let realPhase := -twoPiOverC * realPhase * freq
  ⟨Real.cos realPhase, Real.sin realPhase⟩

/-- The kernel (phase.cu.j2:11-65). `lm` and `uvw` are read through pointers to vectors of two and three numbers (25-28), so
that their strides are not used. -/
noncomputable def phaseKernel (block : Dim3) (lm uvw frequency : GArr ℝ) : Kernel PhaseShared ℝ (Nat × Nat × Nat) ℂ where
  load b t :=
    let row := b.y * block.y + t.y
    let chan := b.x * block.x + t.x
    if phaseOutside uvw frequency row chan then []
    else
      (if t.x = 0 then [(.uvw t.y 0, uvw.ptr (3 * row)), (.uvw t.y 1, uvw.ptr (3 * row + 1)),
        (.uvw t.y 2, uvw.ptr (3 * row + 2))] else []) ++
      (if t.y = 0 then [(.frequency t.x, frequency.flat chan)] else [])
  body b t sh :=
    let row := b.y * block.y + t.y
    let chan := b.x * block.x + t.x
    if phaseOutside uvw frequency row chan then []
    else (List.range (lm.shape.getD 0 0)).map fun s =>
      ((s, row, chan), phaseValue (lm.ptr (2 * s)) (lm.ptr (2 * s + 1)) (sh (.uvw t.y 0)) (sh (.uvw t.y 1)) (sh (.uvw t.y 2))
        (sh (.frequency t.x)))

/-- The block (phase.py:38-40): 32 or 16 threads, by the types of frequencies and coordinates. -/
def phaseBlock (freqSingle uvwSingle : Bool) : Dim3 := ⟨if freqSingle then 32 else 16, if uvwSingle then 32 else 16, 1⟩

/-- Possible results of `phase_delay` (phase.py:62-75). -/
def PhaseGpu (freqSingle uvwSingle : Bool) (lm uvw frequency : GArr ℝ) (r : Except PyErr (Nat × Nat × Nat → ℂ)) : Prop :=
  let block := phaseBlock freqSingle uvwSingle
  LaunchOver (phaseKernel block lm uvw frequency) ⟨frequency.shape.getD 0 0, uvw.shape.getD 0 0, 1⟩ block r

/-- The jax version of `phase_delay` (rime/jax/phase.py:17-37), whose arrays are broadcast over sources, rows and
channels. -/
noncomputable def jaxPhaseDelay (lm : Nat → ℝ × ℝ) (uvw : Nat → ℝ × ℝ × ℝ) (frequency : Nat → ℝ) (s r f : Nat) : ℂ :=
  let l := (lm s).1
  let m := (lm s).2
  let n := Real.sqrt (1 - l ^ 2 - m ^ 2) - 1
  let realPhase := -twoPiOverC * (l * (uvw r).1 + m * (uvw r).2.1 + n * (uvw r).2.2) * frequency f
  Complex.exp (Complex.I * realPhase)

/-! ### feed_rotation -/

/-- The four numbers written for one angle (feeds.cu.j2:42-57); `linear` or `circular` is chosen when the kernel is
generated. -/
noncomputable def feedValue (circular : Bool) (pa : ℝ) : List ℂ :=
  let paSin := Real.sin pa
  let paCos := Real.cos pa
  if circular then [⟨paCos, -paSin⟩, ⟨0, 0⟩, ⟨0, 0⟩, ⟨paCos, paSin⟩]
  else [⟨paCos, 0⟩, ⟨paSin, 0⟩, ⟨-paSin, 0⟩, ⟨paCos, 0⟩]

/-- The kernel (feeds.cu.j2:29-64); there is no shared memory. Output cells are the angle and the place in the structure of
four correlations. -/
noncomputable def feedKernel (block : Dim3) (circular : Bool) (npa : Nat) (parangles : Nat → ℝ) :
    Kernel Empty ℝ (Nat × Nat) ℂ where
  load _ _ := []
  body b t _ :=
    let pa := b.x * block.x + t.x
    if npa ≤ pa then []
    else (feedValue circular (parangles pa)).zipIdx.map fun v => ((pa, v.2), v.1)

/-- Possible results of `feed_rotation` (feeds.py:35-79): `dtype` is the type of the angles, another one than `float32` or
`float64` raises `TypeError`, and another type of feed `TemplatingException`. `ravel` puts the angles in the order of the last
index first, and the result has their extents and two more axes. -/
def FeedGpu (dtype feedType : String) (parangles : GArr ℝ) (r : Except PyErr (Nat × Nat → ℂ)) : Prop :=
  if dtype ≠ "float32" ∧ dtype ≠ "float64" then r = .error .typeError
  else if feedType ≠ "linear" ∧ feedType ≠ "circular" then r = .error .templatingException
  else
    let block : Dim3 := ⟨if dtype = "float32" then 1024 else 512, 1, 1⟩
    LaunchOver (feedKernel block (feedType == "circular") (size parangles.shape) parangles.flat)
      ⟨size parangles.shape, 1, 1⟩ block r

/-- Element `[.., i, j]` of `out.reshape(in_shape + (2, 2))` (feeds.py:80). -/
def feedElement (shape : List Nat) (out : Nat × Nat → ℂ) (idx : List Nat) (i j : Fin 2) : ℂ :=
  out (ravel shape idx, 2 * i + j)

end Verif.Cuda
