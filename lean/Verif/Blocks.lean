/-
Blocks of a chunked axis, as dask describes it by the list of its chunk sizes.
-/
import Verif.Loops

set_option autoImplicit false

namespace Verif

open Finset

/-- Index of the first element of block `i` of an axis with these chunks
(a part of the model of dask, for the chunks used e.g. in rime/dask.py:30-170). -/
def blockOff (chunks : List Nat) (i : Nat) : Nat := (chunks.take i).sum

/-- Number of elements of block `i` (a part of the model of dask, for the chunks used e.g. in rime/dask.py:30-170). -/
def blockSize (chunks : List Nat) (i : Nat) : Nat := chunks.getD i 0

theorem blockOff_lt {chunks : List Nat} {i x : Nat} (hx : x < blockSize chunks i) : blockOff chunks i + x < chunks.sum := by
  induction chunks generalizing i with
  | nil => simp [blockSize] at hx
  | cons c l ih =>
    cases i with
    | zero => simp [blockSize] at hx; simp [blockOff]; omega
    | succ i =>
      have h1 : x < blockSize l i := by simpa [blockSize] using hx
      have := ih h1
      simp only [blockOff, List.take_succ_cons, List.sum_cons] at this ⊢
      omega

/-- A sum over an axis is the sum of the sums over its blocks. -/
theorem sum_blocks {M : Type*} [AddCommMonoid M] (chunks : List Nat) (g : Nat → M) :
    ∑ i ∈ range chunks.length, ∑ r ∈ range (blockSize chunks i), g (blockOff chunks i + r) = ∑ r ∈ range chunks.sum, g r := by
  induction chunks generalizing g with
  | nil => simp
  | cons c l ih =>
    rw [List.length_cons, Finset.sum_range_succ', List.sum_cons, Finset.sum_range_add, ← ih fun r => g (c + r), add_comm]
    congr 1
    · simp [blockSize, blockOff]
    · refine Finset.sum_congr rfl fun i _ => ?_
      simp [blockSize, blockOff, add_assoc]

/-- Every element of an axis is in exactly one block. -/
theorem exists_block (chunks : List Nat) (x : Nat) (h : x < chunks.sum) :
    ∃ i r, i < chunks.length ∧ r < blockSize chunks i ∧ blockOff chunks i + r = x := by
  induction chunks generalizing x with
  | nil => simp at h
  | cons c l ih =>
    rw [List.sum_cons] at h
    by_cases hx : x < c
    · exact ⟨0, x, by simp, by simpa [blockSize] using hx, by simp [blockOff]⟩
    · obtain ⟨i, r, h1, h2, h3⟩ := ih (x - c) (by omega)
      refine ⟨i + 1, r, by simpa using h1, by simpa [blockSize] using h2, ?_⟩
      simp only [blockOff, List.take_succ_cons, List.sum_cons] at h3 ⊢
      omega

end Verif
