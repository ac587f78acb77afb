/-
Specification vocabulary for conversions on a GPU.
-/
import Verif.Cuda.Convert
import Verif.ModelData.CoherencySpec

set_option autoImplicit false

namespace Verif.Cuda

open Verif.ModelData

/-- Correlations, which are complex. -/
def corrNames : List String := ["RR", "RL", "LR", "LL", "XX", "XY", "YX", "YY"]

/-- Stokes parameters, which are real. -/
def stokesNames : List String := ["I", "Q", "U", "V"]

/-- All elements of the schema are at the same depth. -/
def SameDepth (l : List Schema) (shape : List Nat) : Prop := ∀ s p, Has l s p → p.length = shape.length

/-- The outputs are correlations made from real numbers, or Stokes parameters made from complex numbers. -/
def KindsMatch (t : ConvType) (ol : List Schema) : Prop :=
  (t.isComplex = false ∧ ∀ s p, Has ol s p → s ∈ corrNames) ∨ (t.isComplex = true ∧ ∀ s p, Has ol s p → s ∈ stokesNames)

/-- Every output can be computed from inputs that are there. -/
def Available (il ol : List Schema) : Prop :=
  ∀ s p, Has ol s p → ∃ c ∈ requires s, (∃ q, Has il c.1 q) ∧ ∃ q, Has il c.2 q

end Verif.Cuda
