/-
Auxiliary facts about `chunkify_rows`.
-/
import Verif.Calibration.Model
import Verif.Calibration.Spec
import Mathlib.Data.List.Dedup
import Mathlib.Data.List.Sort
import Mathlib.Data.Multiset.Sort
import Mathlib.Algebra.BigOperators.Group.List.Basic
import Mathlib.Data.List.Perm.Basic
import Mathlib.Data.List.Count
import Mathlib.Algebra.Order.BigOperators.Group.List
import Mathlib.Tactic.Ring

set_option autoImplicit false
set_option linter.unusedSectionVars false

namespace Verif.Calibration

/-- Sum of the first `k` entries. -/
def psum (l : List Nat) (k : Nat) : Nat := (l.take k).sum

theorem psum_zero (l : List Nat) : psum l 0 = 0 := by simp [psum]

theorem psum_succ (l : List Nat) (k : Nat) : psum l (k + 1) = psum l k + l.getD k 0 := by
  unfold psum
  rw [List.take_add_one]
  cases h : l[k]? <;> simp [h, List.getD]

theorem psum_mono (l : List Nat) {a b : Nat} (h : a ≤ b) : psum l a ≤ psum l b := by
  induction h with
  | refl => exact le_rfl
  | step _ ih => rw [psum_succ]; omega

theorem psum_all (l : List Nat) {k : Nat} (h : l.length ≤ k) : psum l k = l.sum := by
  unfold psum; rw [List.take_of_length_le h]

theorem psum_drop (l : List Nat) (a b : Nat) : psum (l.drop a) b = psum l (a + b) - psum l a := by
  induction b with
  | zero => simp [psum_zero]
  | succ b ih =>
    rw [psum_succ, ih, ← Nat.add_assoc, psum_succ]
    have := psum_mono l (show a ≤ a + b by omega)
    simp only [List.getD, List.getElem?_drop]
    omega

theorem sliceSums_get (u : Nat) (hu : 0 < u) (l : List Nat) (b : Nat) :
    (sliceSums u hu l)[b]? =
      if b * u < l.length then some (psum l ((b + 1) * u) - psum l (b * u)) else none := by
  induction b generalizing l with
  | zero =>
    rw [sliceSums]
    split
    · rename_i h; subst h; simp
    · rename_i h
      have : 0 < l.length := List.length_pos_iff.2 h
      simp [this, psum]
  | succ b ih =>
    rw [sliceSums]
    split
    · rename_i h; subst h; simp
    · rename_i h
      rw [List.getElem?_cons_succ, ih, List.length_drop]
      have e1 : b * u < l.length - u ↔ (b + 1) * u < l.length := by rw [Nat.add_mul]; omega
      by_cases hc : (b + 1) * u < l.length
      · rw [if_pos (e1.2 hc), if_pos hc, psum_drop, psum_drop]
        congr 1
        have h1 : u + (b + 1) * u = (b + 1 + 1) * u := by ring
        have h2 : u + b * u = (b + 1) * u := by ring
        rw [h1, h2]
        have := psum_mono l (show u ≤ (b + 1) * u by rw [Nat.add_mul]; omega)
        have := psum_mono l (show (b + 1) * u ≤ (b + 1 + 1) * u by rw [Nat.add_mul (b + 1)]; omega)
        omega
      · rw [if_neg (fun h => hc (e1.1 h)), if_neg hc]

theorem sliceSums_length (u : Nat) (hu : 0 < u) (l : List Nat) (b : Nat) :
    b < (sliceSums u hu l).length ↔ b * u < l.length := by
  rw [← not_le, ← not_le, ← List.getElem?_eq_none_iff, sliceSums_get]
  split <;> simp_all

theorem sliceSums_psum (u : Nat) (hu : 0 < u) (l : List Nat) (b : Nat) :
    psum (sliceSums u hu l) b = psum l (b * u) := by
  induction b with
  | zero => simp [psum_zero]
  | succ b ih =>
    rw [psum_succ, ih, List.getD, sliceSums_get]
    have hm := psum_mono l (show b * u ≤ (b + 1) * u by rw [Nat.add_mul]; omega)
    split
    · simp only [Option.getD_some]; omega
    · rename_i h
      rw [psum_all l (show l.length ≤ b * u by omega), psum_all l (show l.length ≤ (b + 1) * u by rw [Nat.add_mul]; omega)]
      rfl

theorem sliceSums_sum (u : Nat) (hu : 0 < u) (l : List Nat) : (sliceSums u hu l).sum = l.sum := by
  have h := sliceSums_psum u hu l (max l.length (sliceSums u hu l).length)
  rw [psum_all _ (le_max_right _ _), psum_all _ ((le_max_left _ _).trans (Nat.le_mul_of_pos_right _ hu))] at h
  exact h

theorem binIndices_get (l : List Nat) (k : Nat) (hk : k < l.length) :
    ((0 :: (cumsum l).dropLast).take l.length).getD k 0 = psum l k := by
  rw [List.getD, List.getElem?_take, if_pos hk]
  cases k with
  | zero => simp [psum_zero]
  | succ k =>
    rw [List.getElem?_cons_succ, List.getElem?_dropLast]
    have : k < (cumsum l).length - 1 := by simp [cumsum]; omega
    rw [if_pos this]
    have h2 : k < l.length := by omega
    simp [cumsum, h2, psum]

theorem binIndices_length (l : List Nat) :
    ((0 :: (cumsum l).dropLast).take l.length).length = l.length := by
  simp [cumsum]
  omega

section unique
variable {α : Type*} [LinearOrder α]

/-- The sorted distinct values. -/
def uvals (time : List α) : List α := time.dedup.mergeSort fun a b => decide (a ≤ b)

theorem uvals_perm (time : List α) : (uvals time).Perm time.dedup := List.mergeSort_perm _ _

theorem uvals_sorted (time : List α) : (uvals time).Pairwise (· < ·) := by
  have h1 : (uvals time).Pairwise fun a b => decide (a ≤ b) = true :=
    List.pairwise_mergeSort (fun a b c h1 h2 => by simp_all; exact h1.trans h2)
      (fun a b => by simp; exact le_total a b) _
  have h2 : (uvals time).Nodup := (uvals_perm time).nodup_iff.2 (List.nodup_dedup time)
  have := h1.and h2
  exact this.imp fun h => lt_of_le_of_ne (by simpa using h.1) h.2

theorem mem_uvals (time : List α) (x : α) : x ∈ uvals time ↔ x ∈ time := by
  rw [(uvals_perm time).mem_iff, List.mem_dedup]

theorem unique_map (time : List α) :
    (npUniqueCounts time).map Prod.snd = (uvals time).map fun x => time.count x := by
  simp [npUniqueCounts, uvals]

theorem counts_sum (time : List α) : ((uvals time).map fun x => time.count x).sum = time.length := by
  rw [((uvals_perm time).map _).sum_eq]
  exact List.sum_map_count_dedup_eq_length time

theorem blocks_get (ut : List α) (c : α → Nat) (k : Nat) (hk : k < ut.length) (r : Nat)
    (h1 : psum (ut.map c) k ≤ r) (h2 : r < psum (ut.map c) k + c ut[k]) :
    (ut.flatMap fun x => List.replicate (c x) x)[r]? = some ut[k] := by
  induction ut generalizing k r with
  | nil => simp at hk
  | cons x ut ih =>
    rw [List.flatMap_cons]
    cases k with
    | zero =>
      simp only [psum_zero, List.getElem_cons_zero, Nat.zero_add] at h1 h2
      rw [List.getElem?_append_left (by simpa using h2)]
      simp [h2]
    | succ k =>
      have e : psum ((x :: ut).map c) (k + 1) = c x + psum (ut.map c) k := by simp [psum]
      rw [e] at h1 h2
      simp only [List.getElem_cons_succ] at h2 ⊢
      rw [List.getElem?_append_right (by simp; omega), List.length_replicate]
      exact ih k (by simpa using hk) (r - c x) (by omega) (by omega)

theorem exists_block (l : List Nat) (r : Nat) (h : r < l.sum) :
    ∃ k < l.length, psum l k ≤ r ∧ r < psum l k + l.getD k 0 := by
  have hex : ∃ k, r < psum l k := ⟨l.length, by rwa [psum_all l le_rfl]⟩
  classical
  obtain ⟨hk, hmin⟩ := Nat.find_spec hex, fun m => Nat.find_min hex (m := m)
  cases hn : Nat.find hex with
  | zero => rw [hn, psum_zero] at hk; omega
  | succ k =>
    rw [hn] at hk
    have hlt := hmin k (by omega)
    rw [psum_succ] at hk
    refine ⟨k, ?_, by omega, hk⟩
    by_contra hc
    rw [psum_all l (by omega : l.length ≤ k)] at hlt
    omega

theorem blocks_eq (time : List α) (hs : time.Pairwise (· ≤ ·)) :
    time = (uvals time).flatMap fun x => List.replicate (time.count x) x := by
  have hsorted : ∀ (ut : List α), ut.Pairwise (· < ·) →
      (ut.flatMap fun x => List.replicate (time.count x) x).Pairwise (· ≤ ·) := by
    intro ut h
    induction h with
    | nil => simp
    | cons hx _ ih =>
      rw [List.flatMap_cons, List.pairwise_append]
      refine ⟨?_, ih, ?_⟩
      · rw [List.pairwise_replicate]; right; exact le_rfl
      · intro a ha b hb
        rw [List.mem_replicate] at ha
        rw [List.mem_flatMap] at hb
        obtain ⟨y, hy, hb⟩ := hb
        rw [List.mem_replicate] at hb
        rw [ha.2, hb.2]
        exact (hx y hy).le
  refine List.Perm.eq_of_pairwise (fun a b _ _ h1 h2 => le_antisymm h1 h2) hs (hsorted _ (uvals_sorted time)) ?_
  rw [List.perm_iff_count]
  intro y
  rw [List.count_flatMap]
  have hnd : (uvals time).Nodup := (uvals_sorted time).imp fun h => ne_of_lt h
  have key : ∀ (ut : List α), ut.Nodup →
      (ut.map (List.count y ∘ fun x => List.replicate (time.count x) x)).sum =
        if y ∈ ut then time.count y else 0 := by
    intro ut h
    induction h with
    | nil => simp
    | @cons x ut hx _ ih =>
      rw [List.map_cons, List.sum_cons, ih]
      simp only [Function.comp, List.count_replicate, beq_iff_eq, List.mem_cons]
      by_cases hxy : x = y
      · subst hxy
        have : x ∉ ut := fun h => hx x h rfl
        simp [this]
      · simp [hxy, Ne.symm hxy]
  rw [key _ hnd]
  split
  · rfl
  · rename_i h; rw [mem_uvals] at h; rw [List.count_eq_zero_of_not_mem h]

end unique

end Verif.Calibration
