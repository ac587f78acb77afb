/-
Which launches a device accepts.
-/
import Verif.Cuda.Machine

set_option autoImplicit false

namespace Verif.Cuda

/-- The extents for which a grid can be launched: at least one element along every axis, at most `2^31 - 1` blocks along the
first axis and at most `65535` along the others. -/
def Fits (dims block : Dim3) : Prop :=
  (0 < dims.x ∧ dims.x ≤ (2 ^ 31 - 1) * block.x) ∧ (0 < dims.y ∧ dims.y ≤ 65535 * block.y) ∧
    (0 < dims.z ∧ dims.z ≤ 65535 * block.z)

end Verif.Cuda
