/-
Properties C21-C25 of the calibration kernels.
-/
import Verif.Calibration.Lemmas
import Mathlib.Data.Complex.Basic

set_option autoImplicit false

namespace Verif.Calibration

open Function Matrix

section
variable {K : Type*} [Field K] [StarRing K]
variable {ntim : Nat} {idx cnt : Nat → Nat} {m : Nat}

/-! ### C21: corrupt_vis

`m` is the smallest entry of `time_bin_indices`: row 0 of the arrays passed in is row `m` of the
whole table. -/

/-- C21, full Jones: each row of bin `t` holds `sum_s J_p M J_q^H`. -/
theorem C21_corrupt_full (ant1 ant2 : Nat → Nat) (nchan ndir : Nat)
    (j : Nat → Nat → Nat → Nat → M2 K) (mod : Nat → Nat → Nat → M2 K)
    (hm : IsMin ntim idx m) (hd : Disjoint' ntim idx cnt) :
    ∃ v, corruptVis ntim idx cnt ant1 ant2 nchan ndir (.six j) (.five mod) = .ok (.four v) ∧
      (∀ t < ntim, ∀ row, InBin idx cnt t (m + row) → ∀ nu < nchan,
        v row nu = ∑ s ∈ Finset.range ndir,
          j t (ant1 row) nu s * mod row nu s * (j t (ant2 row) nu s)ᴴ) ∧
      ∀ row, (∀ t < ntim, ¬ InBin idx cnt t (m + row)) → ∀ nu, v row nu = 0 := by
  refine ⟨_, by unfold corruptVis; rw [shiftIdx_ok hm]; rfl, ?_, ?_⟩
  · intro t ht row hr nu hnu
    rw [binLoop_bin (disjoint_shift hm hd) ht ((inBin_shift hm ht).2 hr) hnu, jonesMulF_eq, zero_add]
  · intro row h nu
    exact binLoop_nobin (Or.inl fun t ht h' => h t ht ((inBin_shift hm ht).1 h'))

/-- C21, diagonal Jones and 2x2 visibilities. -/
theorem C21_corrupt_diag (ant1 ant2 : Nat → Nat) (nchan ndir : Nat)
    (j : Nat → Nat → Nat → Nat → Nat → K) (mod : Nat → Nat → Nat → M2 K)
    (hm : IsMin ntim idx m) (hd : Disjoint' ntim idx cnt) :
    ∃ v, corruptVis ntim idx cnt ant1 ant2 nchan ndir (.five j) (.five mod) = .ok (.four v) ∧
      (∀ t < ntim, ∀ row, InBin idx cnt t (m + row) → ∀ nu < nchan,
        v row nu = ∑ s ∈ Finset.range ndir,
          diagonal (fun c : Fin 2 => j t (ant1 row) nu s c) * mod row nu s *
            (diagonal fun c : Fin 2 => j t (ant2 row) nu s c)ᴴ) ∧
      ∀ row, (∀ t < ntim, ¬ InBin idx cnt t (m + row)) → ∀ nu, v row nu = 0 := by
  refine ⟨_, by unfold corruptVis; rw [shiftIdx_ok hm]; rfl, ?_, ?_⟩
  · intro t ht row hr nu hnu
    rw [binLoop_bin (disjoint_shift hm hd) ht ((inBin_shift hm ht).2 hr) hnu, jonesMulD_eq, zero_add]
    rfl
  · intro row h nu
    exact binLoop_nobin (Or.inl fun t ht h' => h t ht ((inBin_shift hm ht).1 h'))

/-- C21, diagonal Jones and diagonal visibilities with any number `ncorr` of correlations. -/
theorem C21_corrupt_diag_diag (ant1 ant2 : Nat → Nat) (nchan ndir ncorr : Nat)
    (j : Nat → Nat → Nat → Nat → Nat → K) (mod : Nat → Nat → Nat → Nat → K)
    (hm : IsMin ntim idx m) (hd : Disjoint' ntim idx cnt) :
    ∃ v, corruptVis ntim idx cnt ant1 ant2 nchan ndir (.five j) (.four mod) = .ok (.three v) ∧
      (∀ t < ntim, ∀ row, InBin idx cnt t (m + row) → ∀ nu < nchan,
        diagonal (fun c : Fin ncorr => v row nu c) = ∑ s ∈ Finset.range ndir,
          diagonal (fun c : Fin ncorr => j t (ant1 row) nu s c) *
            diagonal (fun c : Fin ncorr => mod row nu s c) *
            (diagonal fun c : Fin ncorr => j t (ant2 row) nu s c)ᴴ) ∧
      ∀ row, (∀ t < ntim, ¬ InBin idx cnt t (m + row)) → ∀ nu, v row nu = 0 := by
  refine ⟨_, by unfold corruptVis; rw [shiftIdx_ok hm]; rfl, ?_, ?_⟩
  · intro t ht row hr nu hnu
    rw [binLoop_bin (disjoint_shift hm hd) ht ((inBin_shift hm ht).2 hr) hnu]
    ext c c'
    rw [Matrix.sum_apply]
    simp only [jonesMulDD_eq, zero_add, diagonal_conjTranspose, diagonal_mul_diagonal]
    by_cases h : c = c'
    · subst h; simp
    · simp [h]
  · intro row h nu
    exact binLoop_nobin (Or.inl fun t ht h' => h t ht ((inBin_shift hm ht).1 h'))

/-- Two time bins of two rows each, in a chunk starting at row 4 of the table, meet the hypotheses. -/
example : IsMin 2 (fun t => 4 + 2 * t) 4 ∧ Disjoint' 2 (fun t => 4 + 2 * t) (fun _ => 2) ∧
    InBin (fun t => 4 + 2 * t) (fun _ => 2) 1 (4 + 3) := by
  refine ⟨⟨⟨0, by omega, rfl⟩, by intro t _; simp⟩, ?_, by simp [InBin]⟩
  intro t ht t' ht' row h h'
  simp only [InBin] at h h'
  omega

/-! ### C23: residual_vis -/

/-- C23, full Jones. -/
theorem C23_residual_full (ant1 ant2 : Nat → Nat) (nchan ndir : Nat)
    (j : Nat → Nat → Nat → Nat → M2 K) (vis : Nat → Nat → M2 K) (flagged : Nat → Nat → Bool)
    (mod : Nat → Nat → Nat → M2 K) (hm : IsMin ntim idx m) (hd : Disjoint' ntim idx cnt) :
    ∃ r v, residualVis ntim idx cnt ant1 ant2 nchan ndir (.six j) (.four vis) flagged (.five mod) =
        .ok (.four r) ∧
      corruptVis ntim idx cnt ant1 ant2 nchan ndir (.six j) (.five mod) = .ok (.four v) ∧
      ∀ t < ntim, ∀ row, InBin idx cnt t (m + row) → ∀ nu < nchan,
        (flagged row nu = true → r row nu = 0) ∧
        (flagged row nu = false → r row nu = vis row nu - v row nu) := by
  refine ⟨_, _, by unfold residualVis; rw [shiftIdx_ok hm]; rfl,
    by unfold corruptVis; rw [shiftIdx_ok hm]; rfl, ?_⟩
  intro t ht row hr nu hnu
  rw [binLoop_bin (disjoint_shift hm hd) ht ((inBin_shift hm ht).2 hr) hnu,
    binLoop_bin (disjoint_shift hm hd) ht ((inBin_shift hm ht).2 hr) hnu, jonesMulF_eq, zero_add,
    subtractF_eq]
  exact ⟨fun h => if_pos h, fun h => if_neg (by simp [h])⟩

/-- C23, diagonal Jones and 2x2 visibilities. -/
theorem C23_residual_diag (ant1 ant2 : Nat → Nat) (nchan ndir : Nat)
    (j : Nat → Nat → Nat → Nat → Nat → K) (vis : Nat → Nat → M2 K) (flagged : Nat → Nat → Bool)
    (mod : Nat → Nat → Nat → M2 K) (hm : IsMin ntim idx m) (hd : Disjoint' ntim idx cnt) :
    ∃ r v, residualVis ntim idx cnt ant1 ant2 nchan ndir (.five j) (.four vis) flagged (.five mod) =
        .ok (.four r) ∧
      corruptVis ntim idx cnt ant1 ant2 nchan ndir (.five j) (.five mod) = .ok (.four v) ∧
      ∀ t < ntim, ∀ row, InBin idx cnt t (m + row) → ∀ nu < nchan,
        (flagged row nu = true → r row nu = 0) ∧
        (flagged row nu = false → r row nu = vis row nu - v row nu) := by
  refine ⟨_, _, by unfold residualVis; rw [shiftIdx_ok hm]; rfl,
    by unfold corruptVis; rw [shiftIdx_ok hm]; rfl, ?_⟩
  intro t ht row hr nu hnu
  rw [binLoop_bin (disjoint_shift hm hd) ht ((inBin_shift hm ht).2 hr) hnu,
    binLoop_bin (disjoint_shift hm hd) ht ((inBin_shift hm ht).2 hr) hnu, jonesMulD_eq, zero_add,
    subtractD_eq]
  exact ⟨fun h => if_pos h, fun h => if_neg (by simp [h])⟩

/-- C23, diagonal Jones and diagonal visibilities. -/
theorem C23_residual_diag_diag (ant1 ant2 : Nat → Nat) (nchan ndir : Nat)
    (j : Nat → Nat → Nat → Nat → Nat → K) (vis : Nat → Nat → Nat → K) (flagged : Nat → Nat → Bool)
    (mod : Nat → Nat → Nat → Nat → K) (hm : IsMin ntim idx m) (hd : Disjoint' ntim idx cnt) :
    ∃ r v, residualVis ntim idx cnt ant1 ant2 nchan ndir (.five j) (.three vis) flagged (.four mod) =
        .ok (.three r) ∧
      corruptVis ntim idx cnt ant1 ant2 nchan ndir (.five j) (.four mod) = .ok (.three v) ∧
      ∀ t < ntim, ∀ row, InBin idx cnt t (m + row) → ∀ nu < nchan, ∀ c,
        (flagged row nu = true → r row nu c = 0) ∧
        (flagged row nu = false → r row nu c = vis row nu c - v row nu c) := by
  refine ⟨_, _, by unfold residualVis; rw [shiftIdx_ok hm]; rfl,
    by unfold corruptVis; rw [shiftIdx_ok hm]; rfl, ?_⟩
  intro t ht row hr nu hnu c
  rw [binLoop_bin (disjoint_shift hm hd) ht ((inBin_shift hm ht).2 hr) hnu,
    binLoop_bin (disjoint_shift hm hd) ht ((inBin_shift hm ht).2 hr) hnu, jonesMulDD_eq, zero_add]
  refine ⟨fun h => by rw [if_pos h], fun h => ?_⟩
  rw [if_neg (by simp [h]), subtractDD_eq]

/-- C23. The residual of data that are the corrupted model vanishes, in every mode. -/
theorem C23_residual_of_corrupted (ant1 ant2 : Nat → Nat) (nchan ndir : Nat)
    (J : Jones K) (M : ModelVis K) (V R : Vis K) (flagged : Nat → Nat → Bool)
    (hm : IsMin ntim idx m) (hd : Disjoint' ntim idx cnt)
    (hV : corruptVis ntim idx cnt ant1 ant2 nchan ndir J M = .ok V)
    (hR : residualVis ntim idx cnt ant1 ant2 nchan ndir J V flagged M = .ok R)
    (t : Nat) (ht : t < ntim) (row : Nat) (hr : InBin idx cnt t (m + row)) (nu : Nat) (hnu : nu < nchan) :
    R.at row nu = .inl 0 ∨ R.at row nu = .inr 0 := by
  cases J with
  | five j =>
    cases M with
    | four mod =>
      cases V with
      | four v =>
        exfalso
        unfold corruptVis at hV
        rw [shiftIdx_ok hm] at hV
        cases hV
      | three v =>
        obtain ⟨r, v', h1, h2, h3⟩ := C23_residual_diag_diag ant1 ant2 nchan ndir j v flagged mod hm hd
        rw [hV] at h2
        rw [hR] at h1
        cases h1; cases h2
        left
        simp only [Vis.at, Sum.inl.injEq]
        funext c
        have := h3 t ht row hr nu hnu c
        cases hf : flagged row nu
        · rw [this.2 hf, sub_self]; rfl
        · rw [this.1 hf]; rfl
    | five mod =>
      cases V with
      | three v =>
        exfalso
        unfold corruptVis at hV
        rw [shiftIdx_ok hm] at hV
        cases hV
      | four v =>
        obtain ⟨r, v', h1, h2, h3⟩ := C23_residual_diag ant1 ant2 nchan ndir j v flagged mod hm hd
        rw [hV] at h2
        rw [hR] at h1
        cases h1; cases h2
        right
        simp only [Vis.at, Sum.inr.injEq]
        have := h3 t ht row hr nu hnu
        cases hf : flagged row nu
        · rw [this.2 hf, sub_self]
        · rw [this.1 hf]
  | six j =>
    cases M with
    | four mod => cases hV
    | five mod =>
      cases V with
      | three v =>
        exfalso
        unfold corruptVis at hV
        rw [shiftIdx_ok hm] at hV
        cases hV
      | four v =>
        obtain ⟨r, v', h1, h2, h3⟩ := C23_residual_full ant1 ant2 nchan ndir j v flagged mod hm hd
        rw [hV] at h2
        rw [hR] at h1
        cases h1; cases h2
        right
        simp only [Vis.at, Sum.inr.injEq]
        have := h3 t ht row hr nu hnu
        cases hf : flagged row nu
        · rw [this.2 hf, sub_self]
        · rw [this.1 hf]

/-! ### C22: correct_vis -/

/-- C22, full Jones. -/
theorem C22_correct_full (ant1 ant2 : Nat → Nat) (nchan ncorr : Nat)
    (j : Nat → Nat → Nat → Nat → M2 K) (mod : Nat → Nat → Nat → M2 K) (flagged : Nat → Nat → Bool)
    (w : Vis K) (hm : IsMin ntim idx m) (hd : Disjoint' ntim idx cnt)
    (hw : corruptVis ntim idx cnt ant1 ant2 nchan 1 (.six j) (.five mod) = .ok w) :
    ∃ v, correctVis ntim ntim idx cnt ant1 ant2 nchan 1 ncorr (.six j) w flagged = .ok (.four v) ∧
      ∀ t < ntim, ∀ row, InBin idx cnt t (m + row) → ∀ nu < nchan,
        (flagged row nu = true → v row nu = 0) ∧
        (flagged row nu = false → det (j t (ant1 row) nu 0) ≠ 0 → det (j t (ant2 row) nu 0) ≠ 0 →
          v row nu = mod row nu 0) := by
  obtain ⟨w', hw', h2, _⟩ := C21_corrupt_full ant1 ant2 nchan 1 j mod hm hd
  rw [hw] at hw'
  cases hw'
  refine ⟨_, by unfold correctVis; rw [shiftIdx_ok hm]; rfl, ?_⟩
  intro t ht row hr nu hnu
  rw [binLoop_bin (disjoint_shift hm hd) ht ((inBin_shift hm ht).2 hr) hnu]
  refine ⟨fun h => if_pos h, fun h hp hq => ?_⟩
  rw [if_neg (by simp [h]), h2 t ht row hr nu hnu, Finset.sum_range_one]
  exact inverseMulF_cancel _ _ _ hp hq

/-- C22, diagonal Jones and 2x2 visibilities. -/
theorem C22_correct_diag (ant1 ant2 : Nat → Nat) (nchan ncorr : Nat)
    (j : Nat → Nat → Nat → Nat → Nat → K) (mod : Nat → Nat → Nat → M2 K) (flagged : Nat → Nat → Bool)
    (w : Vis K) (hm : IsMin ntim idx m) (hd : Disjoint' ntim idx cnt)
    (hw : corruptVis ntim idx cnt ant1 ant2 nchan 1 (.five j) (.five mod) = .ok w) :
    ∃ v, correctVis ntim ntim idx cnt ant1 ant2 nchan 1 ncorr (.five j) w flagged = .ok (.four v) ∧
      ∀ t < ntim, ∀ row, InBin idx cnt t (m + row) → ∀ nu < nchan,
        (flagged row nu = true → v row nu = 0) ∧
        (flagged row nu = false →
          (∀ c < 2, j t (ant1 row) nu 0 c ≠ 0 ∧ j t (ant2 row) nu 0 c ≠ 0) →
          v row nu = mod row nu 0) := by
  obtain ⟨w', hw', h2, _⟩ := C21_corrupt_diag ant1 ant2 nchan 1 j mod hm hd
  rw [hw] at hw'
  cases hw'
  refine ⟨_, by unfold correctVis; rw [shiftIdx_ok hm]; rfl, ?_⟩
  intro t ht row hr nu hnu
  rw [binLoop_bin (disjoint_shift hm hd) ht ((inBin_shift hm ht).2 hr) hnu]
  refine ⟨fun h => if_pos h, fun h hpq => ?_⟩
  rw [if_neg (by simp [h]), h2 t ht row hr nu hnu, Finset.sum_range_one]
  exact inverseMulD_cancel _ _ (fun i => (hpq i.val i.isLt).1) (fun i => (hpq i.val i.isLt).2) _

/-- C22, diagonal Jones and diagonal visibilities. -/
theorem C22_correct_diag_diag (ant1 ant2 : Nat → Nat) (nchan ncorr : Nat)
    (j : Nat → Nat → Nat → Nat → Nat → K) (mod : Nat → Nat → Nat → Nat → K)
    (flagged : Nat → Nat → Bool)
    (w : Vis K) (hm : IsMin ntim idx m) (hd : Disjoint' ntim idx cnt)
    (hw : corruptVis ntim idx cnt ant1 ant2 nchan 1 (.five j) (.four mod) = .ok w) :
    ∃ v, correctVis ntim ntim idx cnt ant1 ant2 nchan 1 ncorr (.five j) w flagged = .ok (.three v) ∧
      ∀ t < ntim, ∀ row, InBin idx cnt t (m + row) → ∀ nu < nchan, ∀ c < ncorr,
        (flagged row nu = true → v row nu c = 0) ∧
        (flagged row nu = false → j t (ant1 row) nu 0 c ≠ 0 → j t (ant2 row) nu 0 c ≠ 0 →
          v row nu c = mod row nu 0 c) := by
  have hw2 := hw
  unfold corruptVis at hw2
  rw [shiftIdx_ok hm] at hw2
  cases hw2
  refine ⟨_, by unfold correctVis; rw [shiftIdx_ok hm]; rfl, ?_⟩
  intro t ht row hr nu hnu c hc
  have hr' := (inBin_shift hm ht).2 hr
  rw [binLoop_bin (disjoint_shift hm hd) ht hr' hnu]
  refine ⟨fun h => by rw [if_pos h], fun h hp hq => ?_⟩
  rw [if_neg (by simp [h]), inverseMulDD_eq _ _ _ _ _ _ hc,
    binLoop_bin (disjoint_shift hm hd) ht hr' hnu, jonesMulDD_eq, Finset.sum_range_one, zero_add]
  have hq' : star (j t (ant2 row) nu 0 c) ≠ 0 := star_ne_zero.2 hq
  field_simp

/-- C22. More than one direction raises `ValueError` (for admissible axis counts and at least one
time). -/
theorem C22_directions_value_error (nidx nt : Nat) (ant1 ant2 : Nat → Nat) (nchan ndir ncorr : Nat)
    (J : Jones K) (V : Vis K) (flagged : Nat → Nat → Bool) (h : 1 < ndir)
    (hc : ¬ (J.ndim = 6 ∧ V.ndim = 3)) :
    correctVis nidx nt idx cnt ant1 ant2 nchan ndir ncorr J V flagged = .error .valueError := by
  rcases Nat.eq_zero_or_pos nidx with rfl | hn
  · cases J <;> cases V <;> first | rfl | exact absurd ⟨rfl, rfl⟩ hc
  · obtain ⟨m, hm⟩ := exists_min idx hn
    unfold correctVis
    rw [shiftIdx_ok hm]
    simp only [if_pos h]
    cases J <;> cases V <;> first | rfl | exact absurd ⟨rfl, rfl⟩ hc

/-- An invertible Jones matrix which is not diagonal, over the Gaussian rationals' completion. -/
example : det (!![1, Complex.I; 0, 2] : M2 ℂ) ≠ 0 := by
  rw [Matrix.det_fin_two]; simp

/-! ### C24: row chunks -/

theorem shiftIdx_add (n : Nat) (idx : Nat → Nat) (off : Nat) :
    (∃ lo, shiftIdx n (fun t => idx t + off) = .ok lo ∧ shiftIdx n idx = .ok lo) ∨
    (shiftIdx n (fun t => idx t + off) = .error .valueError ∧ shiftIdx n idx = .error .valueError) := by
  rcases Nat.eq_zero_or_pos n with rfl | hn
  · exact Or.inr ⟨rfl, rfl⟩
  · obtain ⟨m, hm⟩ := exists_min idx hn
    left
    refine ⟨_, ?_, shiftIdx_ok hm⟩
    rw [shiftIdx_ok (m := m + off)]
    · congr 1
      funext t
      omega
    · obtain ⟨⟨t, ht, h1⟩, h2⟩ := hm
      exact ⟨⟨t, ht, by simp only; omega⟩, fun t ht => by have := h2 t ht; simp only; omega⟩

/-- C24. Adding a constant to all time bin indices changes nothing. -/
theorem C24_offset (off nt : Nat) (ant1 ant2 : Nat → Nat) (nchan ndir ncorr : Nat) (J : Jones K)
    (V : Vis K) (M : ModelVis K) (flagged : Nat → Nat → Bool) :
    corruptVis ntim (fun t => idx t + off) cnt ant1 ant2 nchan ndir J M =
      corruptVis ntim idx cnt ant1 ant2 nchan ndir J M ∧
    residualVis ntim (fun t => idx t + off) cnt ant1 ant2 nchan ndir J V flagged M =
      residualVis ntim idx cnt ant1 ant2 nchan ndir J V flagged M ∧
    correctVis ntim nt (fun t => idx t + off) cnt ant1 ant2 nchan ndir ncorr J V flagged =
      correctVis ntim nt idx cnt ant1 ant2 nchan ndir ncorr J V flagged := by
  unfold corruptVis residualVis correctVis
  rcases shiftIdx_add ntim idx off with ⟨lo, h1, h2⟩ | ⟨h1, h2⟩ <;> rw [h1, h2] <;> exact ⟨rfl, rfl, rfl⟩

/-- A block of the loop nest computes the corresponding part of the whole. -/
theorem binLoop_block {V : Type*} {nt t0 r0 nchan : Nat} {cell cell' : Nat → Nat → Nat → V → V}
    {init init' : Nat → Nat → V} (hm : IsMin ntim idx 0) (hd : Disjoint' ntim idx cnt)
    (ht0 : t0 + nt ≤ ntim) (hm' : IsMin nt (fun t => idx (t0 + t)) r0)
    (hc : ∀ t < nt, ∀ row, ∀ nu < nchan, ∀ x, cell' t row nu x = cell (t0 + t) (r0 + row) nu x)
    (hi : ∀ row nu, init' row nu = init (r0 + row) nu)
    {t row nu : Nat} (ht : t < nt) (hr : InBin idx cnt (t0 + t) (r0 + row)) (hnu : nu < nchan) :
    binLoop nt (fun t => idx (t0 + t) - r0) (fun t => cnt (t0 + t)) nchan cell' init' row nu =
      binLoop ntim (fun t => idx t - 0) cnt nchan cell init (r0 + row) nu := by
  have hd' : Disjoint' nt (fun t => idx (t0 + t)) (fun t => cnt (t0 + t)) := by
    intro a ha b hb row h1 h2
    have := hd (t0 + a) (by omega) (t0 + b) (by omega) row h1 h2
    omega
  rw [binLoop_bin (disjoint_shift hm' hd') ht ((inBin_shift hm' ht).2 hr) hnu,
    binLoop_bin (disjoint_shift hm hd) (t := t0 + t) (by omega)
      ((inBin_shift hm (by omega)).2 (by simpa using hr)) hnu, hc t ht row nu hnu, hi]

variable {nt t0 r0 : Nat}

/-- C24. `corrupt_vis` on the times `t0 .. t0+nt-1` and the rows from `r0` on computes the cells of the
whole result. -/
theorem C24_corrupt_chunk (ant1 ant2 : Nat → Nat) (nchan ndir : Nat) (J : Jones K) (M : ModelVis K)
    (V Vb : Vis K) (hm : IsMin ntim idx 0) (hd : Disjoint' ntim idx cnt)
    (ht0 : t0 + nt ≤ ntim) (hm' : IsMin nt (fun t => idx (t0 + t)) r0)
    (hV : corruptVis ntim idx cnt ant1 ant2 nchan ndir J M = .ok V)
    (hVb : corruptVis nt (fun t => idx (t0 + t)) (fun t => cnt (t0 + t)) (fun r => ant1 (r0 + r))
      (fun r => ant2 (r0 + r)) nchan ndir (J.dropTimes t0) (M.dropRows r0) = .ok Vb)
    (t : Nat) (ht : t < nt) (row : Nat) (hr : InBin idx cnt (t0 + t) (r0 + row))
    (nu : Nat) (hnu : nu < nchan) :
    Vb.at row nu = V.at (r0 + row) nu := by
  unfold corruptVis at hV hVb
  rw [shiftIdx_ok hm] at hV
  rw [shiftIdx_ok hm'] at hVb
  cases J <;> cases M <;> cases hV <;> cases hVb <;>
    · simp only [Vis.at]
      congr 1
      exact binLoop_block hm hd ht0 hm' (by intros; rfl) (by intros; rfl) ht hr hnu

/-- C24 for `residual_vis`. -/
theorem C24_residual_chunk (ant1 ant2 : Nat → Nat) (nchan ndir : Nat) (J : Jones K) (M : ModelVis K)
    (D V Vb : Vis K) (flagged : Nat → Nat → Bool)
    (hm : IsMin ntim idx 0) (hd : Disjoint' ntim idx cnt)
    (ht0 : t0 + nt ≤ ntim) (hm' : IsMin nt (fun t => idx (t0 + t)) r0)
    (hV : residualVis ntim idx cnt ant1 ant2 nchan ndir J D flagged M = .ok V)
    (hVb : residualVis nt (fun t => idx (t0 + t)) (fun t => cnt (t0 + t)) (fun r => ant1 (r0 + r))
      (fun r => ant2 (r0 + r)) nchan ndir (J.dropTimes t0) (D.dropRows r0)
      (fun r => flagged (r0 + r)) (M.dropRows r0) = .ok Vb)
    (t : Nat) (ht : t < nt) (row : Nat) (hr : InBin idx cnt (t0 + t) (r0 + row))
    (nu : Nat) (hnu : nu < nchan) :
    Vb.at row nu = V.at (r0 + row) nu := by
  unfold residualVis at hV hVb
  rw [shiftIdx_ok hm] at hV
  rw [shiftIdx_ok hm'] at hVb
  cases J <;> cases D <;> cases M <;> cases hV <;> cases hVb <;>
    · simp only [Vis.at]
      congr 1
      exact binLoop_block hm hd ht0 hm' (by intros; rfl) (by intros; rfl) ht hr hnu

/-- C24 for `correct_vis`. -/
theorem C24_correct_chunk (ant1 ant2 : Nat → Nat) (nchan ndir ncorr : Nat) (J : Jones K)
    (D V Vb : Vis K) (flagged : Nat → Nat → Bool)
    (hm : IsMin ntim idx 0) (hd : Disjoint' ntim idx cnt)
    (ht0 : t0 + nt ≤ ntim) (hm' : IsMin nt (fun t => idx (t0 + t)) r0)
    (hV : correctVis ntim ntim idx cnt ant1 ant2 nchan ndir ncorr J D flagged = .ok V)
    (hVb : correctVis nt nt (fun t => idx (t0 + t)) (fun t => cnt (t0 + t)) (fun r => ant1 (r0 + r))
      (fun r => ant2 (r0 + r)) nchan ndir ncorr (J.dropTimes t0) (D.dropRows r0)
      (fun r => flagged (r0 + r)) = .ok Vb)
    (t : Nat) (ht : t < nt) (row : Nat) (hr : InBin idx cnt (t0 + t) (r0 + row))
    (nu : Nat) (hnu : nu < nchan) :
    Vb.at row nu = V.at (r0 + row) nu := by
  by_cases hdir : 1 < ndir
  · unfold correctVis at hV
    rw [shiftIdx_ok hm] at hV
    simp only [if_pos hdir] at hV
    cases J <;> cases D <;> cases hV
  · unfold correctVis at hV hVb
    rw [shiftIdx_ok hm] at hV
    rw [shiftIdx_ok hm'] at hVb
    simp only [if_neg hdir] at hV hVb
    cases J <;> cases D <;> cases hV <;> cases hVb <;>
      · simp only [Vis.at]
        congr 1
        exact binLoop_block hm hd ht0 hm' (by intros; rfl) (by intros; rfl) ht hr hnu

end

/-! ### C25: check_type -/

/-- C25. The accepted axis counts and the resulting modes. -/
theorem C25_check_type_ok (j v : Nat) (s : String) (md : Mode) :
    checkType j v s = .ok md ↔
      (s = "vis" ∧ ((v = 3 ∧ j = 5 ∧ md = .diagDiag) ∨ (v = 4 ∧ j = 5 ∧ md = .diag) ∨
        (v = 4 ∧ j = 6 ∧ md = .full))) ∨
      (s = "model" ∧ ((v = 4 ∧ j = 5 ∧ md = .diagDiag) ∨ (v = 5 ∧ j = 5 ∧ md = .diag) ∨
        (v = 5 ∧ j = 6 ∧ md = .full))) := by
  unfold checkType
  by_cases h1 : s = "vis"
  · subst h1
    simp only [if_true]
    split_ifs <;> simp_all [eq_comm]
  · by_cases h2 : s = "model"
    · subst h2
      simp only [if_neg h1, if_true]
      split_ifs <;> simp_all [eq_comm]
    · simp [h1, h2]

/-- C25. Everything else is an error: `ValueError` for an unknown kind, otherwise `RuntimeError`. -/
theorem C25_check_type_error (j v : Nat) (s : String) (e : PyErr) (h : checkType j v s = .error e) :
    (s ≠ "vis" ∧ s ≠ "model" ∧ e = .valueError) ∨ ((s = "vis" ∨ s = "model") ∧ e = .runtimeError) := by
  unfold checkType at h
  by_cases h1 : s = "vis"
  · subst h1
    simp only [if_true] at h
    right
    refine ⟨Or.inl rfl, ?_⟩
    split_ifs at h <;> cases h <;> rfl
  · by_cases h2 : s = "model"
    · subst h2
      simp only [if_neg h1, if_true] at h
      right
      refine ⟨Or.inr rfl, ?_⟩
      split_ifs at h <;> cases h <;> rfl
    · simp only [if_neg h1, if_neg h2] at h
      cases h
      exact Or.inl ⟨h1, h2, rfl⟩

example : checkType 5 4 "model" = .ok .diagDiag ∧ checkType 6 4 "vis" = .ok .full ∧
    checkType 6 3 "vis" = .error .runtimeError ∧ checkType 5 4 "data" = .error .valueError := by
  decide

end Verif.Calibration
