/-
Vocabulary for the calibration properties (the model is imported for its array types only).
-/
import Verif.Calibration.Model
import Mathlib.Data.Matrix.Basic
import Mathlib.LinearAlgebra.Matrix.ConjTranspose

set_option autoImplicit false

namespace Verif.Calibration

/-- Row `row` belongs to time bin `t` according to the bin's first row and number of rows. -/
def InBin (idx cnt : Nat → Nat) (t row : Nat) : Prop := idx t ≤ row ∧ row < idx t + cnt t

/-- No row belongs to two time bins. -/
def Disjoint' (ntim : Nat) (idx cnt : Nat → Nat) : Prop :=
  ∀ t < ntim, ∀ t' < ntim, ∀ row, InBin idx cnt t row → InBin idx cnt t' row → t = t'

/-- `m` is the smallest of `idx 0, ..., idx (n-1)`. -/
def IsMin (n : Nat) (idx : Nat → Nat) (m : Nat) : Prop :=
  (∃ t < n, idx t = m) ∧ ∀ t < n, m ≤ idx t

/-- The contents of one cell (row, channel) of visibilities. -/
def Vis.at {K : Type*} (v : Vis K) (row nu : Nat) : (Nat → K) ⊕ M2 K :=
  match v with
  | .three v => .inl (v row nu)
  | .four v => .inr (v row nu)

/-- The Jones terms from time `t0` on (a block of the time axis). -/
def Jones.dropTimes {K : Type*} (j : Jones K) (t0 : Nat) : Jones K :=
  match j with
  | .five j => .five fun t => j (t0 + t)
  | .six j => .six fun t => j (t0 + t)

/-- The visibilities from row `r0` on. -/
def Vis.dropRows {K : Type*} (v : Vis K) (r0 : Nat) : Vis K :=
  match v with
  | .three v => .three fun r => v (r0 + r)
  | .four v => .four fun r => v (r0 + r)

/-- The model visibilities from row `r0` on. -/
def ModelVis.dropRows {K : Type*} (v : ModelVis K) (r0 : Nat) : ModelVis K :=
  match v with
  | .four v => .four fun r => v (r0 + r)
  | .five v => .five fun r => v (r0 + r)

end Verif.Calibration
