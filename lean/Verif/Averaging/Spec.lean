/-
Vocabulary used to state the averaging properties, independent of the model.
-/
import Verif.Basic
import Mathlib.Data.Rat.Defs
import Mathlib.Algebra.Order.Field.Rat
import Mathlib.Data.Finset.Basic
import Mathlib.Data.Finset.Range
import Mathlib.Data.Finset.Prod
import Mathlib.Algebra.BigOperators.Group.Finset.Basic

set_option autoImplicit false

namespace Verif.Averaging

/-- The int32 range. -/
def IsInt32 (a : Int) : Prop := -2 ^ 31 ≤ a ∧ a < 2 ^ 31

/-- No two different rows share (time, antenna1, antenna2). -/
def NoDup (n : Nat) (time : Nat → ℚ) (ant1 ant2 : Nat → Int) : Prop :=
  ∀ r < n, ∀ q < n, time r = time q → ant1 r = ant1 q → ant2 r = ant2 q → r = q

/-- The input rows (of `n`) that a row map `m` sends to the output row `o`. -/
def fibre (n : Nat) (m : Nat → Nat) (o : Nat) : Finset Nat :=
  (Finset.range n).filter fun r => m r = o

/-- Lower edge of the sample in row `r`. -/
def lowEdge (time interval : Nat → ℚ) (r : Nat) : ℚ := time r - interval r / 2

/-- Upper edge of the sample in row `r`. -/
def highEdge (time interval : Nat → ℚ) (r : Nat) : ℚ := time r + interval r / 2

/-- Is row `r` flagged (any non-zero value counts, absent flags mean unflagged). -/
def rowFlagged (flagRow : Option (Nat → Nat)) (r : Nat) : Prop :=
  match flagRow with
  | some f => f r ≠ 0
  | none => False

instance (flagRow : Option (Nat → Nat)) (r : Nat) : Decidable (rowFlagged flagRow r) := by
  unfold rowFlagged; split <;> infer_instance

/-- The rows that should contribute to output row `o`: the unflagged ones if there are any,
otherwise all (they are all flagged). -/
def contributors (n : Nat) (m : Nat → Nat) (flagRow : Option (Nat → Nat)) (o : Nat) : Finset Nat :=
  if ∀ r ∈ fibre n m o, rowFlagged flagRow r then fibre n m o
  else (fibre n m o).filter fun r => ¬ rowFlagged flagRow r

/-- The weight of a sample: the weight spectrum if given, else the row weight, else 1. -/
def sampleWt {K : Type*} [One K] (weightSpectrum : Option (Nat → Nat → Nat → K))
    (weight : Option (Nat → Nat → K)) (r f c : Nat) : K :=
  match weightSpectrum, weight with
  | some w, _ => w r f c
  | none, some w => w r c
  | none, none => 1

/-- The weight of a row: the supplied one, else 1. -/
def rowWt {K : Type*} [One K] (weight : Option (Nat → Nat → K)) (r c : Nat) : K :=
  match weight with
  | some w => w r c
  | none => 1

/-- Is sample `(r, f, c)` flagged. -/
def sampleFlagged (flag : Option (Nat → Nat → Nat → Nat)) (r f c : Nat) : Prop :=
  match flag with
  | some fl => fl r f c ≠ 0
  | none => False

instance (flag : Option (Nat → Nat → Nat → Nat)) (r f c : Nat) :
    Decidable (sampleFlagged flag r f c) := by
  unfold sampleFlagged; split <;> infer_instance

/-- The (row, channel) samples of an output bin: contributing rows times the channels of the bin. -/
def binSamples (n nchan : Nat) (rowMap : Nat → Nat) (flagRow : Option (Nat → Nat))
    (chanMap : Nat → Nat) (o fo : Nat) : Finset (Nat × Nat) :=
  contributors n rowMap flagRow o ×ˢ fibre nchan chanMap fo

/-- The samples that should be averaged for correlation `c`: the unflagged ones of the bin if there
are any, otherwise all of them. -/
def usedSamples (flag : Option (Nat → Nat → Nat → Nat)) (bin : Finset (Nat × Nat)) (c : Nat) :
    Finset (Nat × Nat) :=
  if ∀ p ∈ bin, sampleFlagged flag p.1 p.2 c then bin
  else bin.filter fun p => ¬ sampleFlagged flag p.1 p.2 c

/-- Flag rows that only use the values 0 and 1. -/
def ZeroOne (n : Nat) (flagRow : Option (Nat → Nat)) : Prop :=
  ∀ f, flagRow = some f → ∀ r < n, f r = 0 ∨ f r = 1

end Verif.Averaging
