/-
Concrete cases for C122, C123 and C124.
-/
import Verif.Gridding.NiftyDegridProps

set_option autoImplicit false

namespace Verif.Nifty

open Verif.Dask

/-- A library that puts every sample with w below 5 on the pixel given by its u and v. -/
def demoLib : Lib ℤ ℤ where
  nu := 4
  nv := 4
  nx := 2
  ny := 2
  inRange := fun uvw _ wmin wmax => decide (wmin ≤ uvw 2 ∧ uvw 2 ≤ wmax)
  contrib := fun uvw f vis w u v => if uvw 0 * f = u ∧ uvw 1 * f = v then w * vis else 0
  sample := fun uvw f g => g (uvw 0 * f).toNat (uvw 1 * f).toNat
  toDirty := fun g x y => g x y
  toGrid := fun g u v => g u v

def demoVis (rows : List Nat) : DArr ℤ := ⟨[rows, [2], [1, 1]], fun i => match i with
  | [r, f, c] => 100 * (r + 1) + 10 * f + c
  | _ => 0⟩
def demoUvw (rows : List Nat) : DArr ℤ := ⟨[rows, [3]], fun i => match i with
  | [r, k] => if k = 2 then r else 1
  | _ => 0⟩
def demoFlags (rows : List Nat) : DArr Bool := ⟨[rows, [2], [2]], fun i => i == [0, 1, 0]⟩
def demoWeights (rows : List Nat) : DArr ℤ := ⟨[rows, [2], [2]], fun _ => 2⟩
def demoFreq : DArr ℤ := ⟨[[2]], fun i => match i with
  | [f] => f + 1
  | _ => 0⟩

/-- The hypotheses of C122 are met by three rows in two chunks. -/
theorem demo_args : GridArgs (demoVis [2, 1]) (demoUvw [2, 1]) (demoFlags [2, 1]) (demoWeights [2, 1]) demoFreq
    [2, 1] [2] [2] [2] 2 2 :=
  ⟨.inr ⟨by simp, by simp⟩, rfl, rfl, ⟨_, rfl, rfl⟩, ⟨_, rfl, rfl⟩, ⟨_, rfl, rfl⟩, ⟨.inr ⟨by simp, by simp⟩, rfl⟩,
    ⟨.inr ⟨by simp, by simp⟩, rfl⟩, ⟨.inr ⟨by simp, by simp⟩, rfl⟩, by simp⟩

/-- Rows 0, 1 and 2 of channel 0 are added up, without the row out of range. -/
example : gridPixel demoLib (demoVis [2, 1]) (demoUvw [2, 1]) (demoFlags [2, 1]) (demoWeights [2, 1]) demoFreq 0 1 0 1 1 =
    2 * (100 + 200) := by decide +kernel

/-- Sample (0, 1) of correlation 0 is flagged. -/
example : gridPixel demoLib (demoVis [2, 1]) (demoUvw [2, 1]) (demoFlags [2, 1]) (demoWeights [2, 1]) demoFreq 0 9 0 2 2 =
    2 * (210 + 310) := by decide +kernel

example (streams : Option ℤ) (hs : ∀ s ∈ streams, 0 < s) := C122_grid_partial demoLib 0 9 demo_args streams hs

/-- The hypotheses of C123 are met. -/
example : ∃ l, daskDegrid demoLib ⟨[[4], [4], [2]], fun i => i.sum⟩ (demoUvw [2, 1]) (demoFlags [2, 1]) demoFreq 0 9 = .ok l ∧
    l.Computes (degridWhole demoLib ⟨[[4], [4], [2]], fun i => i.sum⟩ (demoUvw [2, 1]) (demoFlags [2, 1]) demoFreq 0 9 2) :=
  C123_degrid (rows := [2, 1]) (nchan := 2) demoLib 0 9
    ⟨.inr ⟨by simp, by simp⟩, rfl, rfl, ⟨_, rfl, rfl⟩, ⟨_, rfl, rfl⟩, ⟨.inr ⟨by simp [demoLib], by simp [demoLib]⟩,
      .inr ⟨by simp [demoLib], by simp [demoLib]⟩⟩, ⟨.inr ⟨by simp, by simp⟩, rfl⟩, by simp⟩

/-- The hypotheses of C124 are met: a grid of two correlations in two chunks. -/
example := C124_dirty demoLib ⟨[[4], [4], [1, 1]], fun i => i.sum⟩ 4 4 [1, 1] (.inr ⟨by simp, by simp⟩) rfl

/-- **C122** Visibilities and weights in other row chunks than the coordinates: without streams they are rechunked and
the grid is computed; with streams, block numbers are taken as they are, and gridding raises. -/
theorem C122_streams_violated :
    ∃ (lib : Lib ℤ ℤ) (vis : DArr ℤ) (uvw : DArr ℤ) (flags : DArr Bool) (weights freq : DArr ℤ) (wmin wmax : ℤ),
      (∃ grids x, daskGrid lib vis uvw flags weights freq wmin wmax none = .ok grids ∧ grids[0]? = some x ∧
        ∃ g, x.Evaluates g ∧ ∀ u < 4, ∀ v < 4, g u v = gridPixel lib vis uvw flags weights freq wmin wmax 0 u v) ∧
      (∃ grids x, daskGrid lib vis uvw flags weights freq wmin wmax (some 1) = .ok grids ∧ grids[0]? = some x ∧
        ¬ ∃ g, x.Evaluates g) := by
  refine ⟨demoLib, demoVis [3], demoUvw [2, 1], demoFlags [2, 1], demoWeights [3], demoFreq, 0, 9, ?_, ?_⟩
  · refine ⟨_, _, rfl, rfl, ?_⟩
    refine ⟨_, ⟨fun i u v => if i = 0 then blockGrid demoLib (demoVis [3]) (demoUvw [2, 1]) (demoFlags [2, 1])
      (demoWeights [3]) demoFreq [2, 1] 2 0 0 9 0 u v else blockGrid demoLib (demoVis [3]) (demoUvw [2, 1]) (demoFlags [2, 1])
      (demoWeights [3]) demoFreq [2, 1] 2 0 0 9 1 u v, ?_, rfl⟩, ?_⟩
    · intro i hi
      have hi : i < 2 := hi
      obtain rfl | rfl : i = 0 ∨ i = 1 := by omega
      · rfl
      · rfl
    · decide +kernel
  · refine ⟨_, _, rfl, rfl, ?_⟩
    rintro ⟨g, part, hp, -⟩
    have h := hp 1 (by decide)
    have e : (Except.error PyErr.keyError : Except PyErr (Nat → Nat → ℤ)) = .ok (part 1) := h
    cases e

end Verif.Nifty
