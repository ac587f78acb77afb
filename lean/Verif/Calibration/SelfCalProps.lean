/-
C192: correcting data with the gains that calibration found. C155: closure quantities with several directions.
-/
import Verif.Calibration.RecoverProps
import Verif.Calibration.Props
import Mathlib.Analysis.SpecialFunctions.Trigonometric.Bounds

set_option autoImplicit false

noncomputable section

namespace Verif.Calibration

open Complex

variable {p : Solve} {m t nu c : Nat} {G : Nat → ℂ}

/-! ### Specification -/

/-- The unflagged visibilities `v` of cell `(t, nu, c)` have the amplitudes of the model and its phases up to `ε`. -/
def Solve.LikeModel (p : Solve) (m t nu c : Nat) (v : Nat → Nat → Nat → ℂ) (ε : ℝ) : Prop :=
  ∀ r ∈ p.used m t nu, ‖v r nu c‖ = ‖p.model r nu 0 c‖ ∧ ‖v r nu c - p.model r nu 0 c‖ ≤ ε * ‖p.model r nu 0 c‖

/-- The unflagged residuals `v` of cell `(t, nu, c)` are at most `ε` times the model. -/
def Solve.Small (p : Solve) (m t nu c : Nat) (v : Nat → Nat → Nat → ℂ) (ε : ℝ) : Prop :=
  ∀ r ∈ p.used m t nu, ‖v r nu c‖ ≤ ε * ‖p.model r nu 0 c‖

/-! ### Lemmas -/

private theorem phase_ratio {g h G H x y : ℂ} {a b : ℝ} (hG : ‖G‖ = 1) (hH : ‖H‖ = 1) (hg : g = G * exp (I * a))
    (hh : h = H * exp (I * b)) (hx : x = G * y * (starRingEnd ℂ) H) :
    x / (g * star h) = y * exp (I * ((-(a - b) : ℝ) : ℂ)) := by
  have h1 := mul_conj_unit G hG
  have h2 := mul_conj_unit H hH
  have hG0 : G ≠ 0 := by rintro rfl; simp at hG
  have hH0 : (starRingEnd ℂ) H ≠ 0 := by
    intro h
    rw [h, mul_zero] at h2
    exact zero_ne_one h2
  have e1 : star (exp (I * (b : ℂ))) = exp (-(I * b)) := by
    rw [RCLike.star_def, ← exp_conj, map_mul, conj_I, conj_ofReal]
    congr 1
    ring
  have e2 : exp (I * ((-(a - b) : ℝ) : ℂ)) * (exp (I * a) * exp (-(I * b))) = 1 := by
    rw [← exp_add, ← exp_add, ← exp_zero]
    congr 1
    push_cast
    ring
  rw [hg, hh, hx, star_mul, e1, RCLike.star_def]
  have ne1 := exp_ne_zero (I * (a : ℂ))
  have ne2 := exp_ne_zero (-(I * (b : ℂ)))
  rw [div_eq_iff (by exact mul_ne_zero (mul_ne_zero hG0 ne1) (mul_ne_zero ne2 hH0))]
  linear_combination (-G * y * (starRingEnd ℂ) H) * e2

private theorem norm_phase (x : ℝ) : ‖exp (I * (x : ℂ))‖ = 1 := by
  rw [mul_comm]
  exact norm_exp_ofReal_mul_I x

private theorem norm_phase_sub (x : ℝ) : ‖exp (I * (x : ℂ)) - 1‖ ≤ |x| := by
  have := Real.norm_exp_I_mul_ofReal_sub_one_le (x := x)
  rwa [Real.norm_eq_abs] at this

/-- What `correct_vis` and `residual_vis` return for gains whose phases are known up to `ε`. -/
private theorem corrected (h : p.Noiseless m t nu c G) (hp : p.Binned m) (g : Arr5 ℂ) (ε : ℝ)
    (hg : PhasesWithin p.ext.nant (fun a => g t a nu 0 c) G ε) :
    ∃ v res, correctVis p.ext.ntim p.ext.ntim p.idx p.cnt p.ant1 p.ant2 p.ext.nchan 1 p.ext.ncorr (.five g) (.three p.vis)
        p.flagged = .ok (.three v) ∧ p.LikeModel m t nu c v ε ∧
      residualVis p.ext.ntim p.idx p.cnt p.ant1 p.ant2 p.ext.nchan 1 (.five g) (.three p.vis) p.flagged (.four p.model) =
        .ok (.three res) ∧ p.Small m t nu c res ε := by
  obtain ⟨e, he, hspread⟩ := hg
  refine ⟨_, _, by unfold correctVis; rw [shiftIdx_ok hp.first]; rfl, fun r hr => ?_,
    by unfold residualVis; rw [shiftIdx_ok hp.first]; rfl, fun r hr => ?_⟩
  · obtain ⟨r1, r2, r3⟩ := hr
    obtain ⟨a1, a2⟩ := h.ants r ⟨r1, r2, r3⟩
    rw [binLoop_bin (disjoint_shift hp.first hp.bins) h.bin ⟨r1, r2⟩ h.chan, if_neg (by simp [r3]),
      inverseMulDD_eq _ _ _ _ _ _ h.corr, phase_ratio (h.unit _) (h.unit _) (he _ a1) (he _ a2) (h.data r ⟨r1, r2, r3⟩)]
    refine ⟨by rw [norm_mul, norm_phase, mul_one], ?_⟩
    rw [show p.model r nu 0 c * exp (I * ((-(e (p.ant1 r) - e (p.ant2 r)) : ℝ) : ℂ)) - p.model r nu 0 c =
      (exp (I * ((-(e (p.ant1 r) - e (p.ant2 r)) : ℝ) : ℂ)) - 1) * p.model r nu 0 c by ring, norm_mul]
    refine mul_le_mul_of_nonneg_right ((norm_phase_sub _).trans ?_) (norm_nonneg _)
    rw [abs_neg]
    exact hspread _ a1 _ a2
  · obtain ⟨r1, r2, r3⟩ := hr
    obtain ⟨a1, a2⟩ := h.ants r ⟨r1, r2, r3⟩
    rw [binLoop_bin (disjoint_shift hp.first hp.bins) h.bin ⟨r1, r2⟩ h.chan, if_neg (by simp [r3]), subtractDD_eq,
      Finset.sum_range_one, h.data r ⟨r1, r2, r3⟩]
    have hg1 : g t (p.ant1 r) nu 0 c = G (p.ant1 r) * exp (I * e (p.ant1 r)) := he _ a1
    have hg2 : g t (p.ant2 r) nu 0 c = G (p.ant2 r) * exp (I * e (p.ant2 r)) := he _ a2
    have e1 : star (exp (I * (e (p.ant2 r) : ℂ))) = exp (-(I * e (p.ant2 r))) := by
      rw [RCLike.star_def, ← exp_conj, map_mul, conj_I, conj_ofReal]
      congr 1
      ring
    have e2 : exp (I * ((e (p.ant1 r) - e (p.ant2 r) : ℝ) : ℂ)) = exp (I * e (p.ant1 r)) * exp (-(I * e (p.ant2 r))) := by
      rw [← exp_add]
      congr 1
      push_cast
      ring
    rw [hg1, hg2, star_mul, e1, RCLike.star_def,
      show G (p.ant1 r) * p.model r nu 0 c * (starRingEnd ℂ) (G (p.ant2 r)) -
        G (p.ant1 r) * exp (I * e (p.ant1 r)) * p.model r nu 0 c * (exp (-(I * e (p.ant2 r))) * (starRingEnd ℂ) (G (p.ant2 r))) =
        -(exp (I * ((e (p.ant1 r) - e (p.ant2 r) : ℝ) : ℂ)) - 1) *
          (G (p.ant1 r) * p.model r nu 0 c * (starRingEnd ℂ) (G (p.ant2 r))) by rw [e2]; ring,
      norm_mul, norm_neg, norm_mul, norm_mul, RCLike.norm_conj, h.unit, h.unit, one_mul, mul_one]
    exact mul_le_mul_of_nonneg_right ((norm_phase_sub _).trans (hspread _ a1 _ a2)) (norm_nonneg _)

/-! ### C192 -/

/-- C192 (partial, as C183: initial phases with errors that differ by less than half a turn). Data without noise, corrected with
the gains that calibration returned when it stopped by its tolerance, are the model up to a number of tolerances that
depends on the array, models and weights only, with exactly its amplitudes; the residuals vanish to that accuracy. Neither
depends on the phase common to all antennas that calibration leaves undetermined. -/
theorem C192_selfcal_partial (hp : p.Binned m) (hc : p.Connected m t nu c) (h : p.Noiseless m t nu c G) {D : ℝ}
    (hpi : D < Real.pi) (hD : PhasesWithin p.ext.nant (fun a => p.jones t a nu 0 c) G D) :
    ∃ C : ℝ, 0 < C ∧ ∀ tol maxiter g jhj jhr k, p.run tol maxiter = .ok (g, jhj, jhr, k) → k < maxiter →
      ∃ v res, correctVis p.ext.ntim p.ext.ntim p.idx p.cnt p.ant1 p.ant2 p.ext.nchan 1 p.ext.ncorr (.five g) (.three p.vis)
          p.flagged = .ok (.three v) ∧ p.LikeModel m t nu c v (C * tol) ∧
        residualVis p.ext.ntim p.idx p.cnt p.ant1 p.ant2 p.ext.nchan 1 (.five g) (.three p.vis) p.flagged (.four p.model) =
          .ok (.three res) ∧ p.Small m t nu c res (C * tol) := by
  obtain ⟨C, hC, hacc⟩ := C183_accuracy_partial hp hc h hpi hD
  exact ⟨C, hC, fun tol maxiter g jhj jhr k hr hk => corrected h hp g _ (hacc tol maxiter g jhj jhr k hr hk)⟩

/-- C192 (partial, as above). Any accuracy is reached after enough iterations. -/
theorem C192_converges_partial (hp : p.Binned m) (hc : p.Connected m t nu c) (h : p.Noiseless m t nu c G) {D : ℝ}
    (hpi : D < Real.pi) (hD : PhasesWithin p.ext.nant (fun a => p.jones t a nu 0 c) G D) (ε : ℝ) (hε : 0 < ε) :
    ∃ n, ∀ tol maxiter g jhj jhr k, p.run tol maxiter = .ok (g, jhj, jhr, k) → n ≤ k →
      ∃ v res, correctVis p.ext.ntim p.ext.ntim p.idx p.cnt p.ant1 p.ant2 p.ext.nchan 1 p.ext.ncorr (.five g) (.three p.vis)
          p.flagged = .ok (.three v) ∧ p.LikeModel m t nu c v ε ∧
        residualVis p.ext.ntim p.idx p.cnt p.ant1 p.ant2 p.ext.nchan 1 (.five g) (.three p.vis) p.flagged (.four p.model) =
          .ok (.three res) ∧ p.Small m t nu c res ε := by
  obtain ⟨n, hn⟩ := C183_converges_partial h hp hc hpi hD ε hε
  exact ⟨n, fun tol maxiter g jhj jhr k hr hk => corrected h hp g _ (hn tol maxiter g jhj jhr k hr hk)⟩

/-- C192 (partial, as above). Even a run that is cut short does not leave the data further from the model than the initial gains
would allow. -/
theorem C192_spread_partial (hp : p.Binned m) (h : p.Noiseless m t nu c G) {D : ℝ}
    (hpi : D < Real.pi) (hD : PhasesWithin p.ext.nant (fun a => p.jones t a nu 0 c) G D)
    (tol : ℝ) (maxiter : Nat) (g jhr : Arr5 ℂ) (jhj : Arr5 ℝ) (k : Nat) (hr : p.run tol maxiter = .ok (g, jhj, jhr, k)) :
    ∃ v res, correctVis p.ext.ntim p.ext.ntim p.idx p.cnt p.ant1 p.ant2 p.ext.nchan 1 p.ext.ncorr (.five g) (.three p.vis)
        p.flagged = .ok (.three v) ∧ p.LikeModel m t nu c v D ∧
      residualVis p.ext.ntim p.idx p.cnt p.ant1 p.ant2 p.ext.nchan 1 (.five g) (.three p.vis) p.flagged (.four p.model) =
        .ok (.three res) ∧ p.Small m t nu c res D :=
  corrected h hp g _ (C183_spread_partial h hp hpi hD tol maxiter g jhr jhj k hr)

/-- C192 is violated by errors that differ by half a turn: one baseline, model 1, data -1 and unit gains. Whatever the tolerance and
the limit, calibration stops after one iteration, and the data corrected with the gains it found are -1, not the model. -/
theorem C192_violated (tol : ℝ) (h0 : 0 ≤ tol) (h1 : tol < 1) (maxiter : Nat) (hm : 1 ≤ maxiter) :
    (oneBaseline (-1)).Noiseless 0 0 0 0 (fun a => if a = 0 then -1 else 1) ∧ (oneBaseline (-1)).Connected 0 0 0 0 ∧
    ∃ g jhj jhr, (oneBaseline (-1)).run tol maxiter = .ok (g, jhj, jhr, 1) ∧
      ∃ v, correctVis 1 1 (fun _ => 0) (fun _ => 1) (fun _ => 0) (fun _ => 1) 1 1 1 (.five g) (.three fun _ _ _ => -1)
          (fun _ _ => false) = .ok (.three v) ∧ v 0 0 0 = -1 ∧ (oneBaseline (-1)).model 0 0 0 0 = 1 := by
  have hm1 : IsMin 1 (fun _ => 0) 0 := (oneBaseline_binned (-1)).first
  have hd1 : Disjoint' 1 (fun _ => 0) (fun _ => 1) := (oneBaseline_binned (-1)).bins
  obtain ⟨hn, g, jhj, jhr, hr, hg, -⟩ := C183_violated tol h0 h1 maxiter hm
  refine ⟨hn, oneBaseline_connected _, g, jhj, jhr, hr, _,
    by unfold correctVis; rw [shiftIdx_ok hm1]; rfl, ?_, rfl⟩
  rw [binLoop_bin (disjoint_shift hm1 hd1) Nat.one_pos
    (show InBin _ _ 0 0 by simp [InBin]) Nat.one_pos, if_neg (by simp), inverseMulDD_eq _ _ _ _ _ _ Nat.one_pos,
    hg 0 Nat.two_pos, hg 1 Nat.one_lt_two]
  simp

/-- Calibrating from unit gains a baseline whose true phase difference is a quarter turn meets the hypotheses, and its corrected
visibility is then like the model. -/
example : ∃ n, ∀ tol maxiter g jhj jhr k,
    (oneBaseline (exp (I * (Real.pi / 2 : ℝ)))).run tol maxiter = .ok (g, jhj, jhr, k) → n ≤ k →
      ∃ v res, correctVis 1 1 (fun _ => 0) (fun _ => 1) (fun _ => 0) (fun _ => 1) 1 1 1 (.five g)
          (.three fun _ _ _ => exp (I * (Real.pi / 2 : ℝ))) (fun _ _ => false) = .ok (.three v) ∧
        (oneBaseline (exp (I * (Real.pi / 2 : ℝ)))).LikeModel 0 0 0 0 v (1 / 100) ∧
        residualVis 1 (fun _ => 0) (fun _ => 1) (fun _ => 0) (fun _ => 1) 1 1 (.five g)
          (.three fun _ _ _ => exp (I * (Real.pi / 2 : ℝ))) (fun _ _ => false) (.four fun _ _ _ _ => 1) = .ok (.three res) ∧
        (oneBaseline (exp (I * (Real.pi / 2 : ℝ)))).Small 0 0 0 0 res (1 / 100) := by
  refine C192_converges_partial (p := oneBaseline (exp (I * (Real.pi / 2 : ℝ)))) (D := |Real.pi / 2|) (oneBaseline_binned _)
    (oneBaseline_connected _) (oneBaseline_noiseless _ ?_) ?_ (oneBaseline_within _) _ (by norm_num)
  · rw [mul_comm]; exact norm_exp_ofReal_mul_I _
  · rw [abs_of_pos (by linarith [Real.pi_pos])]; linarith [Real.pi_pos]

/-! ### C155: several directions -/

/-- **C155**, gains that differ between directions do change closure phases: two sources of flux 1 in all visibilities have closure
phase zero, and with gains `1, i, 2` of the three antennas towards the second of them the product is `9 + 3 i`. -/
theorem C155_directions :
    ∃ (j : Nat → Nat → Nat → Nat → Nat → ℂ) (u v : Nat → Nat → Nat → ℂ), (∀ t a nu s c, j t a nu s c ≠ 0) ∧
      corruptVis 1 (fun _ => 0) (fun _ => 3) (fun r => r) (fun r => (r + 1) % 3) 1 2 (.five fun _ _ _ _ _ => 1)
        (.four fun _ _ _ _ => 1) = .ok (.three u) ∧ u 0 0 0 * u 1 0 0 * u 2 0 0 = 8 ∧
      corruptVis 1 (fun _ => 0) (fun _ => 3) (fun r => r) (fun r => (r + 1) % 3) 1 2 (.five j) (.four fun _ _ _ _ => 1) =
        .ok (.three v) ∧ v 0 0 0 * v 1 0 0 * v 2 0 0 = 9 + 3 * I := by
  have hm : IsMin 1 (fun _ => 0) 0 := ⟨⟨0, Nat.one_pos, rfl⟩, fun _ _ => le_rfl⟩
  have hd : Disjoint' 1 (fun _ => 0) (fun _ => 3) := fun t ht t' ht' _ _ _ => by omega
  have row : ∀ (j : Nat → Nat → Nat → Nat → Nat → ℂ), ∃ v,
      corruptVis 1 (fun _ => 0) (fun _ => 3) (fun r => r) (fun r => (r + 1) % 3) 1 2 (.five j) (.four fun _ _ _ _ => 1) =
        .ok (.three v) ∧ ∀ r < 3, v r 0 0 = j 0 r 0 0 0 * (starRingEnd ℂ) (j 0 ((r + 1) % 3) 0 0 0) +
          j 0 r 0 1 0 * (starRingEnd ℂ) (j 0 ((r + 1) % 3) 0 1 0) := by
    intro j
    refine ⟨_, by unfold corruptVis; rw [shiftIdx_ok hm]; rfl, fun r hr => ?_⟩
    rw [binLoop_bin (disjoint_shift hm hd) Nat.one_pos (show InBin _ _ 0 r by simp [InBin]; omega) Nat.one_pos, jonesMulDD_eq,
      Finset.sum_range_succ, Finset.sum_range_one]
    simp
  obtain ⟨u, hu, eu⟩ := row fun _ _ _ _ _ => 1
  obtain ⟨v, hv, ev⟩ := row fun _ a _ s _ => if s = 0 then 1 else if a = 0 then 1 else if a = 1 then I else 2
  refine ⟨fun _ a _ s _ => if s = 0 then 1 else if a = 0 then 1 else if a = 1 then I else 2, u, v,
    fun _ _ _ _ _ => by dsimp only; split_ifs <;> simp, hu, ?_, hv, ?_⟩
  · rw [eu 0 (by omega), eu 1 (by omega), eu 2 (by omega)]
    norm_num
  · rw [ev 0 (by omega), ev 1 (by omega), ev 2 (by omega)]
    simp
    apply Complex.ext <;> simp <;> norm_num

end Verif.Calibration
