/-
C149: how corruptions, corrections and residuals compose, and that corrupt_vis and predict_vis agree.
-/
import Verif.Calibration.Props
import Verif.Rime.Props
import Mathlib.LinearAlgebra.Matrix.NonsingularInverse

set_option autoImplicit false

namespace Verif.Calibration

open Function Matrix

/-! ### specification -/

/-- The Jones terms from direction `d0` on. -/
def Jones.dropDirs {K : Type*} (j : Jones K) (d0 : Nat) : Jones K :=
  match j with
  | .five j => .five fun t p nu s => j t p nu (d0 + s)
  | .six j => .six fun t p nu s => j t p nu (d0 + s)

/-- The model visibilities from direction `d0` on. -/
def ModelVis.dropDirs {K : Type*} (v : ModelVis K) (d0 : Nat) : ModelVis K :=
  match v with
  | .four v => .four fun r nu s => v r nu (d0 + s)
  | .five v => .five fun r nu s => v r nu (d0 + s)

/-- Visibilities as a model with one direction. -/
def Vis.asModel {K : Type*} (v : Vis K) : ModelVis K :=
  match v with
  | .three v => .four fun r nu _ => v r nu
  | .four v => .five fun r nu _ => v r nu

section
variable {K : Type*} [Field K] [StarRing K]
variable {ntim : Nat} {idx cnt : Nat → Nat} {m : Nat}

/-! ### corrupt_vis and predict_vis -/

/-- **C149** `corrupt_vis(jones, model)` gives the visibilities that `predict_vis` gives for the Jones terms as direction
dependent effects and the model as coherencies of its directions, if the time index of a row is its time bin; 2x2 terms. -/
theorem C149_predict_full (ant1 ant2 : Nat → Nat) (nchan ndir nrow tmin : Nat) (time : Nat → Nat)
    (j : Nat → Nat → Nat → Nat → M2 K) (mod : Nat → Nat → Nat → M2 K)
    (hm : IsMin ntim idx m) (hd : Disjoint' ntim idx cnt) (ht : Rime.IsMin nrow time tmin)
    (hbin : ∀ r < nrow, time r - tmin < ntim ∧ InBin idx cnt (time r - tmin) (m + r)) :
    ∃ v w, corruptVis ntim idx cnt ant1 ant2 nchan ndir (.six j) (.five mod) = .ok (.four v) ∧
      Rime.predictVis Rime.fullKernel ndir nrow nchan time ant1 ant2
        ⟨some (fun s t a f => j t a f s, fun s t a f => j t a f s), some fun s r f => mod r f s, none, none⟩ = .ok w ∧
      ∀ r < nrow, ∀ f < nchan, v r f = w r f := by
  obtain ⟨v, h1, h2, -⟩ := C21_corrupt_full ant1 ant2 nchan ndir j mod hm hd
  obtain ⟨w, h3, h4⟩ := Rime.C34_predict_full ndir nrow nchan time ant1 ant2 tmin ht
    ⟨some (fun s t a f => j t a f s, fun s t a f => j t a f s), some fun s r f => mod r f s, none, none⟩ (.inl rfl)
  refine ⟨v, w, h1, h3, fun r hr f hf => ?_⟩
  rw [h4 r hr f hf, h2 _ (hbin r hr).1 r (hbin r hr).2 f hf]
  simp [Rime.rime, star_eq_conjTranspose]

/-- **C149** The same for one or two correlations. -/
theorem C149_predict_diag_diag (ant1 ant2 : Nat → Nat) (nchan ndir nrow tmin ncorr : Nat) (time : Nat → Nat)
    (j : Nat → Nat → Nat → Nat → Nat → K) (mod : Nat → Nat → Nat → Nat → K)
    (hm : IsMin ntim idx m) (hd : Disjoint' ntim idx cnt) (ht : Rime.IsMin nrow time tmin)
    (hbin : ∀ r < nrow, time r - tmin < ntim ∧ InBin idx cnt (time r - tmin) (m + r)) :
    ∃ v w, corruptVis ntim idx cnt ant1 ant2 nchan ndir (.five j) (.four mod) = .ok (.three v) ∧
      Rime.predictVis (Rime.diagKernel ncorr) ndir nrow nchan time ant1 ant2
        ⟨some (fun s t a f => j t a f s, fun s t a f => j t a f s), some fun s r f => mod r f s, none, none⟩ = .ok w ∧
      ∀ r < nrow, ∀ f < nchan, ∀ c < ncorr, v r f c = w r f c := by
  obtain ⟨v, h1, h2, -⟩ := C21_corrupt_diag_diag ant1 ant2 nchan ndir ncorr j mod hm hd
  obtain ⟨w, h3, h4⟩ := Rime.C34_predict_diag ncorr ndir nrow nchan time ant1 ant2 tmin ht
    ⟨some (fun s t a f => j t a f s, fun s t a f => j t a f s), some fun s r f => mod r f s, none, none⟩ (.inl rfl)
  refine ⟨v, w, h1, h3, fun r hr f hf c hc => ?_⟩
  have h := congrFun (congrFun (h2 _ (hbin r hr).1 r (hbin r hr).2 f hf) ⟨c, hc⟩) ⟨c, hc⟩
  rw [Matrix.diagonal_apply_eq, Matrix.sum_apply] at h
  rw [h4 r hr f hf c hc]
  simp only at h
  rw [h]
  simp [Rime.rime]

/-- Two times with two rows each meet the hypotheses. -/
example : Rime.IsMin 4 (fun r => 3 + r / 2) 3 ∧ IsMin 2 (fun t => 10 + 2 * t) 10 ∧ Disjoint' 2 (fun t => 10 + 2 * t) (fun _ => 2) ∧
    ∀ r < 4, (3 + r / 2) - 3 < 2 ∧ InBin (fun t => 10 + 2 * t) (fun _ => 2) ((3 + r / 2) - 3) (10 + r) := by
  refine ⟨⟨⟨0, by omega, rfl⟩, fun r _ => by dsimp only; omega⟩, ⟨⟨0, by omega, rfl⟩, fun t _ => by dsimp only; omega⟩, ?_, ?_⟩
  · intro t _ t' _ row h h'
    unfold InBin at h h'
    dsimp only at h h'
    omega
  · intro r _
    unfold InBin
    dsimp only
    omega

/-! ### two corruptions -/

/-- **C149** Corrupting with `H` (any number of directions) and the result with `G` is corrupting with `G H`; 2x2 terms. -/
theorem C149_corrupt_twice_full (ant1 ant2 : Nat → Nat) (nchan ndir : Nat)
    (g : Nat → Nat → Nat → M2 K) (h : Nat → Nat → Nat → Nat → M2 K) (mod : Nat → Nat → Nat → M2 K)
    (hm : IsMin ntim idx m) (hd : Disjoint' ntim idx cnt) :
    ∃ v1 v2 v, corruptVis ntim idx cnt ant1 ant2 nchan ndir (.six h) (.five mod) = .ok v1 ∧
      corruptVis ntim idx cnt ant1 ant2 nchan 1 (.six fun t p nu _ => g t p nu) v1.asModel = .ok v2 ∧
      corruptVis ntim idx cnt ant1 ant2 nchan ndir (.six fun t p nu s => g t p nu * h t p nu s) (.five mod) = .ok v ∧
      ∀ t < ntim, ∀ row, InBin idx cnt t (m + row) → ∀ nu < nchan, v2.at row nu = v.at row nu := by
  obtain ⟨v1, a1, a2, -⟩ := C21_corrupt_full ant1 ant2 nchan ndir h mod hm hd
  obtain ⟨v2, b1, b2, -⟩ := C21_corrupt_full ant1 ant2 nchan 1 (fun t p nu _ => g t p nu) (fun r nu _ => v1 r nu) hm hd
  obtain ⟨v, c1, c2, -⟩ := C21_corrupt_full ant1 ant2 nchan ndir (fun t p nu s => g t p nu * h t p nu s) mod hm hd
  refine ⟨_, _, _, a1, b1, c1, fun t ht row hr nu hnu => ?_⟩
  simp only [Vis.at, Sum.inr.injEq]
  rw [b2 t ht row hr nu hnu, c2 t ht row hr nu hnu, Finset.sum_range_one, a2 t ht row hr nu hnu, Finset.mul_sum,
    Finset.sum_mul]
  refine Finset.sum_congr rfl fun s _ => ?_
  rw [conjTranspose_mul]
  simp only [Matrix.mul_assoc]

/-- **C149** The same for diagonal terms and 2x2 visibilities. -/
theorem C149_corrupt_twice_diag (ant1 ant2 : Nat → Nat) (nchan ndir : Nat)
    (g : Nat → Nat → Nat → Nat → K) (h : Nat → Nat → Nat → Nat → Nat → K) (mod : Nat → Nat → Nat → M2 K)
    (hm : IsMin ntim idx m) (hd : Disjoint' ntim idx cnt) :
    ∃ v1 v2 v, corruptVis ntim idx cnt ant1 ant2 nchan ndir (.five h) (.five mod) = .ok v1 ∧
      corruptVis ntim idx cnt ant1 ant2 nchan 1 (.five fun t p nu _ => g t p nu) v1.asModel = .ok v2 ∧
      corruptVis ntim idx cnt ant1 ant2 nchan ndir (.five fun t p nu s c => g t p nu c * h t p nu s c) (.five mod) = .ok v ∧
      ∀ t < ntim, ∀ row, InBin idx cnt t (m + row) → ∀ nu < nchan, v2.at row nu = v.at row nu := by
  obtain ⟨v1, a1, a2, -⟩ := C21_corrupt_diag ant1 ant2 nchan ndir h mod hm hd
  obtain ⟨v2, b1, b2, -⟩ := C21_corrupt_diag ant1 ant2 nchan 1 (fun t p nu _ => g t p nu) (fun r nu _ => v1 r nu) hm hd
  obtain ⟨v, c1, c2, -⟩ := C21_corrupt_diag ant1 ant2 nchan ndir (fun t p nu s c => g t p nu c * h t p nu s c) mod hm hd
  refine ⟨_, _, _, a1, b1, c1, fun t ht row hr nu hnu => ?_⟩
  simp only [Vis.at, Sum.inr.injEq]
  rw [b2 t ht row hr nu hnu, c2 t ht row hr nu hnu, Finset.sum_range_one, a2 t ht row hr nu hnu, Finset.mul_sum,
    Finset.sum_mul]
  refine Finset.sum_congr rfl fun s _ => ?_
  rw [← diagonal_mul_diagonal, ← diagonal_mul_diagonal, conjTranspose_mul]
  simp only [Matrix.mul_assoc]

/-- **C149** The same for diagonal terms and visibilities. -/
theorem C149_corrupt_twice_diag_diag (ant1 ant2 : Nat → Nat) (nchan ndir : Nat)
    (g : Nat → Nat → Nat → Nat → K) (h : Nat → Nat → Nat → Nat → Nat → K) (mod : Nat → Nat → Nat → Nat → K)
    (hm : IsMin ntim idx m) (hd : Disjoint' ntim idx cnt) :
    ∃ v1 v2 v, corruptVis ntim idx cnt ant1 ant2 nchan ndir (.five h) (.four mod) = .ok v1 ∧
      corruptVis ntim idx cnt ant1 ant2 nchan 1 (.five fun t p nu _ => g t p nu) v1.asModel = .ok v2 ∧
      corruptVis ntim idx cnt ant1 ant2 nchan ndir (.five fun t p nu s c => g t p nu c * h t p nu s c) (.four mod) = .ok v ∧
      ∀ t < ntim, ∀ row, InBin idx cnt t (m + row) → ∀ nu < nchan, v2.at row nu = v.at row nu := by
  refine ⟨_, _, _, by unfold corruptVis; rw [shiftIdx_ok hm]; rfl, by unfold corruptVis; rw [shiftIdx_ok hm]; rfl,
    by unfold corruptVis; rw [shiftIdx_ok hm]; rfl, fun t ht row hr nu hnu => ?_⟩
  simp only [Vis.at, Sum.inl.injEq]
  have hr' := (inBin_shift hm ht).2 hr
  rw [binLoop_bin (disjoint_shift hm hd) ht hr' hnu, binLoop_bin (disjoint_shift hm hd) ht hr' hnu,
    binLoop_bin (disjoint_shift hm hd) ht hr' hnu]
  funext c
  rw [jonesMulDD_eq, jonesMulDD_eq, jonesMulDD_eq, Finset.sum_range_one, zero_add, zero_add, zero_add, Finset.mul_sum,
    Finset.sum_mul]
  refine Finset.sum_congr rfl fun s _ => ?_
  rw [star_mul]
  ring

/-! ### two corrections -/

private theorem inverse_twice (g h g' h' w : M2 K) (hg : g.det ≠ 0) (hh : h.det ≠ 0) (hg' : g'.det ≠ 0) (hh' : h'.det ≠ 0) :
    inverseMulF (g * h) w (g' * h') = inverseMulF h (inverseMulF g w g') h' := by
  have ug : IsUnit g.det := isUnit_iff_ne_zero.2 hg
  have uh : IsUnit h.det := isUnit_iff_ne_zero.2 hh
  have ug' : IsUnit g'.det := isUnit_iff_ne_zero.2 hg'
  have uh' : IsUnit h'.det := isUnit_iff_ne_zero.2 hh'
  have exact1 : ∀ (a b x : M2 K), IsUnit a.det → IsUnit b.det → ∃ y, x = a * y * bᴴ := by
    intro a b x ha hb
    have hb' : IsUnit (bᴴ).det := by rw [det_conjTranspose]; exact hb.star
    refine ⟨a⁻¹ * x * (bᴴ)⁻¹, ?_⟩
    rw [Matrix.mul_assoc, Matrix.mul_assoc (a⁻¹ * x), nonsing_inv_mul _ hb', Matrix.mul_one, ← Matrix.mul_assoc,
      mul_nonsing_inv _ ha, Matrix.one_mul]
  obtain ⟨y, rfl⟩ := exact1 g g' w ug ug'
  obtain ⟨z, rfl⟩ := exact1 h h' y uh uh'
  rw [inverseMulF_cancel g g' _ hg hg', inverseMulF_cancel h h' _ hh hh']
  rw [show g * (h * z * h'ᴴ) * g'ᴴ = (g * h) * z * (g' * h')ᴴ by rw [conjTranspose_mul]; simp only [Matrix.mul_assoc]]
  exact inverseMulF_cancel _ _ _ (by rw [det_mul]; exact mul_ne_zero hg hh) (by rw [det_mul]; exact mul_ne_zero hg' hh')

/-- **C149** Correcting with `G` and the result with `H` is correcting with `G H`, for invertible 2x2 terms. -/
theorem C149_correct_twice_full (ant1 ant2 : Nat → Nat) (nchan ncorr : Nat)
    (g h : Nat → Nat → Nat → Nat → M2 K) (w : Nat → Nat → M2 K) (flagged : Nat → Nat → Bool)
    (hm : IsMin ntim idx m) (hd : Disjoint' ntim idx cnt)
    (hg : ∀ t p nu, (g t p nu 0).det ≠ 0) (hh : ∀ t p nu, (h t p nu 0).det ≠ 0) :
    ∃ v1 v2 v, correctVis ntim ntim idx cnt ant1 ant2 nchan 1 ncorr (.six g) (.four w) flagged = .ok v1 ∧
      correctVis ntim ntim idx cnt ant1 ant2 nchan 1 ncorr (.six h) v1 flagged = .ok v2 ∧
      correctVis ntim ntim idx cnt ant1 ant2 nchan 1 ncorr (.six fun t p nu s => g t p nu s * h t p nu s) (.four w) flagged =
        .ok v ∧
      ∀ t < ntim, ∀ row, InBin idx cnt t (m + row) → ∀ nu < nchan, v2.at row nu = v.at row nu := by
  refine ⟨_, _, _, by unfold correctVis; rw [shiftIdx_ok hm]; rfl, by unfold correctVis; rw [shiftIdx_ok hm]; rfl,
    by unfold correctVis; rw [shiftIdx_ok hm]; rfl, fun t ht row hr nu hnu => ?_⟩
  simp only [Vis.at, Sum.inr.injEq]
  have hr' := (inBin_shift hm ht).2 hr
  rw [binLoop_bin (disjoint_shift hm hd) ht hr' hnu, binLoop_bin (disjoint_shift hm hd) ht hr' hnu,
    binLoop_bin (disjoint_shift hm hd) ht hr' hnu]
  cases hf : flagged row nu
  · simp only [Bool.false_eq_true, if_false]
    exact (inverse_twice _ _ _ _ _ (hg _ _ _) (hh _ _ _) (hg _ _ _) (hh _ _ _)).symm
  · simp

/-- **C149** The same for diagonal terms and visibilities; here no condition on the gains is needed. -/
theorem C149_correct_twice_diag_diag (ant1 ant2 : Nat → Nat) (nchan ncorr : Nat)
    (g h : Nat → Nat → Nat → Nat → Nat → K) (w : Nat → Nat → Nat → K) (flagged : Nat → Nat → Bool)
    (hm : IsMin ntim idx m) (hd : Disjoint' ntim idx cnt) :
    ∃ v1 v2 v, correctVis ntim ntim idx cnt ant1 ant2 nchan 1 ncorr (.five g) (.three w) flagged = .ok v1 ∧
      correctVis ntim ntim idx cnt ant1 ant2 nchan 1 ncorr (.five h) v1 flagged = .ok (.three v2) ∧
      correctVis ntim ntim idx cnt ant1 ant2 nchan 1 ncorr (.five fun t p nu s c => g t p nu s c * h t p nu s c) (.three w)
        flagged = .ok (.three v) ∧
      ∀ t < ntim, ∀ row, InBin idx cnt t (m + row) → ∀ nu < nchan, ∀ c < ncorr, v2 row nu c = v row nu c := by
  refine ⟨_, _, _, by unfold correctVis; rw [shiftIdx_ok hm]; rfl, by unfold correctVis; rw [shiftIdx_ok hm]; rfl,
    by unfold correctVis; rw [shiftIdx_ok hm]; rfl, fun t ht row hr nu hnu c hc => ?_⟩
  have hr' := (inBin_shift hm ht).2 hr
  rw [binLoop_bin (disjoint_shift hm hd) ht hr' hnu, binLoop_bin (disjoint_shift hm hd) ht hr' hnu,
    binLoop_bin (disjoint_shift hm hd) ht hr' hnu]
  cases hf : flagged row nu
  · simp only [Bool.false_eq_true, if_false]
    rw [inverseMulDD_eq _ _ _ _ _ _ hc, inverseMulDD_eq _ _ _ _ _ _ hc, inverseMulDD_eq _ _ _ _ _ _ hc, star_mul, div_div]
    congr 1
    ring
  · simp

/-! ### peeling -/

/-- **C149** The residual for `a + b` directions is the residual for the last `b` directions of the residual for the first
`a`; the kinds of arrays are any that are accepted. -/
theorem C149_peel (ant1 ant2 : Nat → Nat) (nchan a b : Nat) (J : Jones K) (V : Vis K) (M : ModelVis K)
    (flagged : Nat → Nat → Bool) (hm : IsMin ntim idx m) (hd : Disjoint' ntim idx cnt) (R : Vis K)
    (hR : residualVis ntim idx cnt ant1 ant2 nchan (a + b) J V flagged M = .ok R) :
    ∃ R1 R2, residualVis ntim idx cnt ant1 ant2 nchan a J V flagged M = .ok R1 ∧
      residualVis ntim idx cnt ant1 ant2 nchan b (J.dropDirs a) R1 flagged (M.dropDirs a) = .ok R2 ∧
      ∀ t < ntim, ∀ row, InBin idx cnt t (m + row) → ∀ nu < nchan, R2.at row nu = R.at row nu := by
  cases J with
  | five j =>
    cases V with
    | three v =>
      cases M with
      | five mod =>
        unfold residualVis at hR
        rw [shiftIdx_ok hm] at hR
        cases hR
      | four mod =>
        unfold residualVis at hR
        rw [shiftIdx_ok hm] at hR
        cases hR
        refine ⟨_, _, by unfold residualVis; rw [shiftIdx_ok hm]; rfl, by unfold residualVis; rw [shiftIdx_ok hm]; rfl, ?_⟩
        intro t ht row hr nu hnu
        have hr' := (inBin_shift hm ht).2 hr
        simp only [Vis.at, Sum.inl.injEq]
        rw [binLoop_bin (disjoint_shift hm hd) ht hr' hnu, binLoop_bin (disjoint_shift hm hd) ht hr' hnu,
          binLoop_bin (disjoint_shift hm hd) ht hr' hnu]
        cases hf : flagged row nu
        · simp only [Bool.false_eq_true, if_false]
          funext c
          rw [subtractDD_eq, subtractDD_eq, subtractDD_eq, Finset.sum_range_add, sub_sub]
        · simp
    | four v =>
      cases M with
      | four mod =>
        unfold residualVis at hR
        rw [shiftIdx_ok hm] at hR
        cases hR
      | five mod =>
        unfold residualVis at hR
        rw [shiftIdx_ok hm] at hR
        cases hR
        refine ⟨_, _, by unfold residualVis; rw [shiftIdx_ok hm]; rfl, by unfold residualVis; rw [shiftIdx_ok hm]; rfl, ?_⟩
        intro t ht row hr nu hnu
        have hr' := (inBin_shift hm ht).2 hr
        simp only [Vis.at, Sum.inr.injEq]
        rw [binLoop_bin (disjoint_shift hm hd) ht hr' hnu, binLoop_bin (disjoint_shift hm hd) ht hr' hnu,
          binLoop_bin (disjoint_shift hm hd) ht hr' hnu]
        cases hf : flagged row nu
        · simp only [Bool.false_eq_true, if_false]
          rw [subtractD_eq, subtractD_eq, subtractD_eq, Finset.sum_range_add, sub_sub]
        · simp
  | six j =>
    cases V with
    | three v => cases hR
    | four v =>
      cases M with
      | four mod =>
        unfold residualVis at hR
        rw [shiftIdx_ok hm] at hR
        cases hR
      | five mod =>
        unfold residualVis at hR
        rw [shiftIdx_ok hm] at hR
        cases hR
        refine ⟨_, _, by unfold residualVis; rw [shiftIdx_ok hm]; rfl, by unfold residualVis; rw [shiftIdx_ok hm]; rfl, ?_⟩
        intro t ht row hr nu hnu
        have hr' := (inBin_shift hm ht).2 hr
        simp only [Vis.at, Sum.inr.injEq]
        rw [binLoop_bin (disjoint_shift hm hd) ht hr' hnu, binLoop_bin (disjoint_shift hm hd) ht hr' hnu,
          binLoop_bin (disjoint_shift hm hd) ht hr' hnu]
        cases hf : flagged row nu
        · simp only [Bool.false_eq_true, if_false]
          rw [subtractF_eq, subtractF_eq, subtractF_eq, Finset.sum_range_add, sub_sub]
        · simp

/-! ### baseline reversal -/

/-- **C149** Swapping the antennas of every row and conjugate-transposing the model conjugate-transposes the corrupted
visibilities; 2x2 terms. -/
theorem C149_reverse_full (ant1 ant2 : Nat → Nat) (nchan ndir : Nat)
    (j : Nat → Nat → Nat → Nat → M2 K) (mod : Nat → Nat → Nat → M2 K)
    (hm : IsMin ntim idx m) (hd : Disjoint' ntim idx cnt) :
    ∃ v v', corruptVis ntim idx cnt ant1 ant2 nchan ndir (.six j) (.five mod) = .ok (.four v) ∧
      corruptVis ntim idx cnt ant2 ant1 nchan ndir (.six j) (.five fun r nu s => (mod r nu s)ᴴ) = .ok (.four v') ∧
      ∀ t < ntim, ∀ row, InBin idx cnt t (m + row) → ∀ nu < nchan, v' row nu = (v row nu)ᴴ := by
  obtain ⟨v, a1, a2, -⟩ := C21_corrupt_full ant1 ant2 nchan ndir j mod hm hd
  obtain ⟨v', b1, b2, -⟩ := C21_corrupt_full ant2 ant1 nchan ndir j (fun r nu s => (mod r nu s)ᴴ) hm hd
  refine ⟨v, v', a1, b1, fun t ht row hr nu hnu => ?_⟩
  rw [b2 t ht row hr nu hnu, a2 t ht row hr nu hnu, conjTranspose_sum]
  refine Finset.sum_congr rfl fun s _ => ?_
  rw [conjTranspose_mul, conjTranspose_mul, conjTranspose_conjTranspose, Matrix.mul_assoc]

end

end Verif.Calibration
