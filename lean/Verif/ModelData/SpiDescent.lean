/-
C175: every update of a spectral index fit goes downhill, and the fit rests where the misfit is stationary.
-/
import Verif.ModelData.SpectralProps
import Mathlib.Analysis.SpecialFunctions.Pow.Deriv
import Mathlib.Analysis.Complex.ExponentialBounds
import Mathlib.Tactic.LinearCombination

set_option autoImplicit false

namespace Verif.ModelData

open Finset

/-- The misfit along a line through `(alpha, i0)`. -/
theorem misfit_deriv (n : Nat) (data weights beam w : Nat → ℝ) (hw : ∀ v < n, 0 < w v) (alpha i0 da di : ℝ) :
    HasDerivAt (fun t : ℝ => misfit n data weights beam w (alpha + t * da) (i0 + t * di))
      (-2 * ((sums n data weights beam w alpha i0).jr0 * da + (sums n data weights beam w alpha i0).jr1 * di)) 0 := by
  obtain ⟨_, h2, h3, _⟩ := sums_fields n data weights beam w alpha i0
  rw [h2, h3]
  have hterm : ∀ v ∈ range n, HasDerivAt
      (fun t : ℝ => weights v * (data v - powerLaw beam w (alpha + t * da) (i0 + t * di) v) ^ 2)
      (-2 * (jac0 beam w alpha i0 v * weights v * residual data beam w alpha i0 v * da +
        jac1 beam w alpha v * weights v * residual data beam w alpha i0 v * di)) 0 := by
    intro v hv
    have hpos := hw v (mem_range.1 hv)
    have ha : HasDerivAt (fun t : ℝ => alpha + t * da) da 0 := by
      simpa using ((hasDerivAt_id (0 : ℝ)).mul_const da).const_add alpha
    have hi : HasDerivAt (fun t : ℝ => i0 + t * di) di 0 := by
      simpa using ((hasDerivAt_id (0 : ℝ)).mul_const di).const_add i0
    have hp := ha.const_rpow hpos
    have hm := hi.mul (hp.const_mul (beam v))
    have hr := ((hm.const_sub (data v)).pow 2).const_mul (weights v)
    refine hr.congr_deriv ?_
    simp only [jac0, jac1, residual, Pi.mul_apply]
    simp
    ring
  have := HasDerivAt.fun_sum hterm
  unfold misfit
  refine this.congr_deriv ?_
  rw [← mul_sum, sum_add_distrib, sum_mul, sum_mul]

/-- Two channels of positive weight and different frequencies, in which the beam is not zero, determine the
parameters of a component that is not zero. -/
theorem det_pos (n : Nat) (data weights beam w : Nat → ℝ) (hw : ∀ v < n, 0 < w v) (hwt : ∀ v < n, 0 ≤ weights v)
    (alpha i0 : ℝ) (hi : i0 ≠ 0) (a b : Nat) (ha : a < n) (hb : b < n) (hab : w a ≠ w b)
    (hwa : 0 < weights a) (hwb : 0 < weights b) (hba : beam a ≠ 0) (hbb : beam b ≠ 0) :
    0 < (sums n data weights beam w alpha i0).hess00 * (sums n data weights beam w alpha i0).hess11 -
      (sums n data weights beam w alpha i0).hess01 ^ 2 := by
  obtain ⟨_, _, _, h4, h5, h6⟩ := sums_fields n data weights beam w alpha i0
  set su := sums n data weights beam w alpha i0
  have hj : ∀ v < n, beam v ≠ 0 → jac1 beam w alpha v ≠ 0 := fun v hv h =>
    mul_ne_zero h (Real.rpow_pos_of_pos (hw v hv) _).ne'
  have h11 : 0 < su.hess11 := by
    rw [h6]
    refine lt_of_lt_of_le ?_ (single_le_sum (f := fun v => jac1 beam w alpha v * weights v * jac1 beam w alpha v)
      (fun v hv => ?_) (mem_range.2 ha))
    · have := hj a ha hba
      have : 0 < jac1 beam w alpha a ^ 2 := by positivity
      nlinarith
    · nlinarith [mul_nonneg (hwt v (mem_range.1 hv)) (sq_nonneg (jac1 beam w alpha v))]
  by_contra hneg
  have hq : ∑ v ∈ range n, weights v * (su.hess11 * jac0 beam w alpha i0 v - su.hess01 * jac1 beam w alpha v) ^ 2 =
      su.hess11 * (su.hess00 * su.hess11 - su.hess01 ^ 2) := by
    have : ∑ v ∈ range n, weights v * (su.hess11 * jac0 beam w alpha i0 v - su.hess01 * jac1 beam w alpha v) ^ 2 =
        su.hess11 ^ 2 * ∑ v ∈ range n, jac0 beam w alpha i0 v * weights v * jac0 beam w alpha i0 v -
        2 * su.hess11 * su.hess01 * ∑ v ∈ range n, jac0 beam w alpha i0 v * weights v * jac1 beam w alpha v +
        su.hess01 ^ 2 * ∑ v ∈ range n, jac1 beam w alpha v * weights v * jac1 beam w alpha v := by
      rw [mul_sum, mul_sum, mul_sum, ← sum_sub_distrib, ← sum_add_distrib]
      exact sum_congr rfl fun v _ => by ring
    rw [this, ← h4, ← h5, ← h6]
    ring
  have hnn : ∀ v ∈ range n, 0 ≤ weights v * (su.hess11 * jac0 beam w alpha i0 v - su.hess01 * jac1 beam w alpha v) ^ 2 :=
    fun v hv => mul_nonneg (hwt v (mem_range.1 hv)) (sq_nonneg _)
  have hz : ∑ v ∈ range n, weights v * (su.hess11 * jac0 beam w alpha i0 v - su.hess01 * jac1 beam w alpha v) ^ 2 = 0 :=
    le_antisymm (by rw [hq]; exact mul_nonpos_of_nonneg_of_nonpos h11.le (not_lt.1 hneg)) (sum_nonneg hnn)
  have hall := (sum_eq_zero_iff_of_nonneg hnn).1 hz
  have hlog : ∀ v, v < n → 0 < weights v → beam v ≠ 0 → su.hess11 * (i0 * Real.log (w v)) = su.hess01 := by
    intro v hv hwv hbv
    have := hall v (mem_range.2 hv)
    rcases mul_eq_zero.1 this with h | h
    · exact absurd h hwv.ne'
    · have h' := pow_eq_zero_iff (two_ne_zero) |>.1 h
      have hne := hj v hv hbv
      unfold jac0 at h'
      have : jac1 beam w alpha v * (su.hess11 * (i0 * Real.log (w v)) - su.hess01) = 0 := by linear_combination h'
      rcases mul_eq_zero.1 this with h | h
      · exact absurd h hne
      · linarith
  have e := (hlog a ha hwa hba).trans (hlog b hb hwb hbb).symm
  have e2 := mul_left_cancel₀ hi (mul_left_cancel₀ h11.ne' e)
  exact hab (Real.log_injOn_pos (hw a ha) (hw b hb) e2)

/-- One iteration. -/
theorem fit_one (n : Nat) (data weights freqs : Nat → ℝ) (freq0 : ℝ) (beam : Nat → ℝ) (alpha i0 tol mindet : ℝ)
    (htol : tol < 1) (out : FitOut)
    (h : fitComponent n data weights freqs freq0 beam alpha i0 tol 1 mindet = .ok out) :
    out.alpha = stepAlpha (sums n data weights beam (fun v => freqs v / freq0) alpha i0) mindet alpha ∧
      out.i0 = stepI0 (sums n data weights beam (fun v => freqs v / freq0) alpha i0) mindet i0 := by
  simp only [fitComponent, fitLoop] at h
  rw [if_pos htol] at h
  simp only [fitStep] at h
  split at h
  · cases h
  · cases h
    exact ⟨rfl, rfl⟩

/-- The component is determined by its data: frequencies are positive, weights are not negative, and two channels of
positive weight and different frequencies have a beam that is not zero (a specification for model/spi/component_spi.py:11-54). -/
structure Determined (n : Nat) (weights freqs : Nat → ℝ) (freq0 : ℝ) (beam : Nat → ℝ) : Prop where
  ref : 0 < freq0
  posf : ∀ v < n, 0 < freqs v
  posw : ∀ v < n, 0 ≤ weights v
  two : ∃ a b, a < n ∧ b < n ∧ freqs a ≠ freqs b ∧ 0 < weights a ∧ 0 < weights b ∧ beam a ≠ 0 ∧ beam b ≠ 0

theorem Determined.det {n : Nat} {weights freqs : Nat → ℝ} {freq0 : ℝ} {beam : Nat → ℝ}
    (hd : Determined n weights freqs freq0 beam) (data : Nat → ℝ) (alpha i0 : ℝ) (hi : i0 ≠ 0) :
    0 < (sums n data weights beam (fun v => freqs v / freq0) alpha i0).hess00 *
        (sums n data weights beam (fun v => freqs v / freq0) alpha i0).hess11 -
      (sums n data weights beam (fun v => freqs v / freq0) alpha i0).hess01 ^ 2 := by
  obtain ⟨a, b, ha, hb, hab, hwa, hwb, hba, hbb⟩ := hd.two
  refine det_pos n data weights beam _ (fun v hv => div_pos (hd.posf v hv) hd.ref) hd.posw alpha i0 hi a b ha hb ?_
    hwa hwb hba hbb
  intro h
  exact hab (by have := hd.ref.ne'; field_simp at h; exact h)

/-- **C175** (partial: of the update, not of the misfit after it; see `C175_violated`). The misfit along the line from a
component to its update has a derivative at the component that is not positive, and that is zero only if the update
changes nothing. -/
theorem C175_downhill_partial (n : Nat) (data weights freqs : Nat → ℝ) (freq0 : ℝ) (beam : Nat → ℝ)
    (hd : Determined n weights freqs freq0 beam) (alpha i0 tol mindet : ℝ) (hi : i0 ≠ 0) (htol : tol < 1)
    (out : FitOut) (h : fitComponent n data weights freqs freq0 beam alpha i0 tol 1 mindet = .ok out) :
    ∃ D, HasDerivAt (fun t : ℝ => misfit n data weights beam (fun v => freqs v / freq0)
        (alpha + t * (out.alpha - alpha)) (i0 + t * (out.i0 - i0))) D 0 ∧ D ≤ 0 ∧
      (D = 0 → out.alpha = alpha ∧ out.i0 = i0) := by
  obtain ⟨e1, e2⟩ := fit_one n data weights freqs freq0 beam alpha i0 tol mindet htol out h
  have hdet := hd.det data alpha i0 hi
  refine ⟨_, misfit_deriv n data weights beam _ (fun v hv => div_pos (hd.posf v hv) hd.ref) alpha i0 _ _, ?_⟩
  obtain ⟨_, _, _, h4, h5, h6⟩ := sums_fields n data weights beam (fun v => freqs v / freq0) alpha i0
  set su := sums n data weights beam (fun v => freqs v / freq0) alpha i0 with hsu
  have hsq : ∀ f : Nat → ℝ, 0 ≤ ∑ v ∈ range n, f v * weights v * f v := fun f =>
    sum_nonneg fun v hv => by nlinarith [mul_nonneg (hd.posw v (mem_range.1 hv)) (sq_nonneg (f v))]
  have h00 : 0 ≤ su.hess00 := by rw [h4]; exact hsq _
  have h11 : 0 ≤ su.hess11 := by rw [h6]; exact hsq _
  have h11p : 0 < su.hess11 := by
    rcases h11.lt_or_eq with h | h
    · exact h
    · rw [← h] at hdet; nlinarith [sq_nonneg su.hess01]
  have hD : 0 < detOf su mindet := lt_of_lt_of_le hdet (le_max_left _ _)
  have key : -2 * (su.jr0 * (out.alpha - alpha) + su.jr1 * (out.i0 - i0)) =
      -2 * ((su.hess11 * su.jr0 ^ 2 - 2 * su.hess01 * su.jr0 * su.jr1 + su.hess00 * su.jr1 ^ 2) / detOf su mindet) := by
    rw [e1, e2, stepAlpha, stepI0]
    field_simp
    ring
  -- `H11 · q = (H11 jr0 - H01 jr1)² + det · jr1²`
  have hid : su.hess11 * (su.hess11 * su.jr0 ^ 2 - 2 * su.hess01 * su.jr0 * su.jr1 + su.hess00 * su.jr1 ^ 2) =
      (su.hess11 * su.jr0 - su.hess01 * su.jr1) ^ 2 + (su.hess00 * su.hess11 - su.hess01 ^ 2) * su.jr1 ^ 2 := by ring
  have hq : 0 ≤ su.hess11 * su.jr0 ^ 2 - 2 * su.hess01 * su.jr0 * su.jr1 + su.hess00 * su.jr1 ^ 2 := by
    by_contra hneg
    have := mul_neg_of_pos_of_neg h11p (not_le.1 hneg)
    nlinarith [sq_nonneg (su.hess11 * su.jr0 - su.hess01 * su.jr1), mul_nonneg hdet.le (sq_nonneg su.jr1)]
  rw [key]
  refine ⟨by have := div_nonneg hq hD.le; linarith, fun hz => ?_⟩
  have hq0 : su.hess11 * su.jr0 ^ 2 - 2 * su.hess01 * su.jr0 * su.jr1 + su.hess00 * su.jr1 ^ 2 = 0 := by
    have : (su.hess11 * su.jr0 ^ 2 - 2 * su.hess01 * su.jr0 * su.jr1 + su.hess00 * su.jr1 ^ 2) / detOf su mindet = 0 := by
      linarith
    rcases div_eq_zero_iff.1 this with h | h
    · exact h
    · exact absurd h hD.ne'
  rw [hq0, mul_zero] at hid
  have hj1 : su.jr1 = 0 := by
    have := mul_nonneg hdet.le (sq_nonneg su.jr1)
    have hz2 : (su.hess00 * su.hess11 - su.hess01 ^ 2) * su.jr1 ^ 2 = 0 := by
      nlinarith [sq_nonneg (su.hess11 * su.jr0 - su.hess01 * su.jr1)]
    rcases mul_eq_zero.1 hz2 with h | h
    · exact absurd h hdet.ne'
    · exact pow_eq_zero_iff two_ne_zero |>.1 h
  have hj0 : su.jr0 = 0 := by
    rw [hj1] at hid
    have : (su.hess11 * su.jr0) ^ 2 = 0 := by nlinarith
    rcases mul_eq_zero.1 (pow_eq_zero_iff two_ne_zero |>.1 this) with h | h
    · exact absurd h h11p.ne'
    · exact h
  rw [e1, e2, stepAlpha, stepI0, hj0, hj1]
  simp

/-- **C175** (partial, as above). The update changes nothing exactly where the misfit is stationary in the index and in the
intensity. -/
theorem C175_rest_partial (n : Nat) (data weights freqs : Nat → ℝ) (freq0 : ℝ) (beam : Nat → ℝ)
    (hd : Determined n weights freqs freq0 beam) (alpha i0 tol mindet : ℝ) (hi : i0 ≠ 0) (htol : tol < 1)
    (out : FitOut) (h : fitComponent n data weights freqs freq0 beam alpha i0 tol 1 mindet = .ok out) :
    (out.alpha = alpha ∧ out.i0 = i0) ↔
      (HasDerivAt (fun a => misfit n data weights beam (fun v => freqs v / freq0) a i0) 0 alpha ∧
        HasDerivAt (fun i => misfit n data weights beam (fun v => freqs v / freq0) alpha i) 0 i0) := by
  obtain ⟨e1, e2⟩ := fit_one n data weights freqs freq0 beam alpha i0 tol mindet htol out h
  have hdet := hd.det data alpha i0 hi
  have hpos : ∀ v < n, 0 < freqs v / freq0 := fun v hv => div_pos (hd.posf v hv) hd.ref
  have da : HasDerivAt (fun a => misfit n data weights beam (fun v => freqs v / freq0) a i0)
      (-2 * (sums n data weights beam (fun v => freqs v / freq0) alpha i0).jr0) alpha := by
    have := misfit_deriv n data weights beam (fun v => freqs v / freq0) hpos alpha i0 1 0
    simp only [mul_one, mul_zero, add_zero] at this
    have h2 := HasDerivAt.comp_sub_const alpha alpha (by rw [sub_self]; exact this)
    simpa using h2
  have di : HasDerivAt (fun i => misfit n data weights beam (fun v => freqs v / freq0) alpha i)
      (-2 * (sums n data weights beam (fun v => freqs v / freq0) alpha i0).jr1) i0 := by
    have := misfit_deriv n data weights beam (fun v => freqs v / freq0) hpos alpha i0 0 1
    simp only [mul_one, mul_zero, add_zero, zero_add] at this
    have h2 := HasDerivAt.comp_sub_const i0 i0 (by rw [sub_self]; exact this)
    simpa using h2
  set su := sums n data weights beam (fun v => freqs v / freq0) alpha i0 with hsu
  have hD : 0 < detOf su mindet := lt_of_lt_of_le hdet (le_max_left _ _)
  constructor
  · rintro ⟨r1, r2⟩
    rw [r1, stepAlpha] at e1
    rw [r2, stepI0] at e2
    have z1 : su.hess11 * su.jr0 - su.hess01 * su.jr1 = 0 := by
      have : (su.hess11 * su.jr0 - su.hess01 * su.jr1) / detOf su mindet = 0 := by linarith
      rcases div_eq_zero_iff.1 this with h | h
      exacts [h, absurd h hD.ne']
    have z2 : -su.hess01 * su.jr0 + su.hess00 * su.jr1 = 0 := by
      have : (-su.hess01 * su.jr0 + su.hess00 * su.jr1) / detOf su mindet = 0 := by linarith
      rcases div_eq_zero_iff.1 this with h | h
      exacts [h, absurd h hD.ne']
    have j0 : su.jr0 = 0 := by
      have : (su.hess00 * su.hess11 - su.hess01 ^ 2) * su.jr0 = 0 := by
        linear_combination su.hess00 * z1 + su.hess01 * z2
      rcases mul_eq_zero.1 this with h | h
      exacts [absurd h hdet.ne', h]
    have j1 : su.jr1 = 0 := by
      have : (su.hess00 * su.hess11 - su.hess01 ^ 2) * su.jr1 = 0 := by
        linear_combination su.hess01 * z1 + su.hess11 * z2
      rcases mul_eq_zero.1 this with h | h
      exacts [absurd h hdet.ne', h]
    rw [j0, mul_zero] at da
    rw [j1, mul_zero] at di
    exact ⟨da, di⟩
  · rintro ⟨r1, r2⟩
    have j0 : su.jr0 = 0 := by have := da.unique r1; linarith
    have j1 : su.jr1 = 0 := by have := di.unique r2; linarith
    rw [e1, e2, stepAlpha, stepI0, j0, j1]
    simp

/-- **C175** The misfit can grow: three channels, the third without weight, at `1`, `e` and `1` times the reference
frequency, with data 1, 5 and 1. From index 0 and intensity 1 the update is to index 4 and intensity 1, and the misfit
grows from 16 to more than 1000. -/
theorem C175_violated :
    ∃ out, fitComponent 3 (fun v => if v = 1 then 5 else 1) (fun v => if v = 2 then 0 else 1)
        (fun v => if v = 1 then Real.exp 1 else 1) 1 (fun _ => 1) 0 1 (1 / 10000) 1 (1 / 1000000000000) = .ok out ∧
      misfit 3 (fun v => if v = 1 then 5 else 1) (fun v => if v = 2 then 0 else 1) (fun _ => 1)
        (fun v => (if v = 1 then Real.exp 1 else 1) / 1) 0 1 = 16 ∧
      1000 < misfit 3 (fun v => if v = 1 then 5 else 1) (fun v => if v = 2 then 0 else 1) (fun _ => 1)
        (fun v => (if v = 1 then Real.exp 1 else 1) / 1) out.alpha out.i0 := by
  obtain ⟨out, hout⟩ := (C51_failures 3 (fun v => if v = 1 then 5 else 1) (fun v => if v = 2 then 0 else 1)
    (fun v => if v = 1 then Real.exp 1 else 1) 1 (fun _ => 1) 0 1 (1 / 10000) 1 (1 / 1000000000000)).2.2
    (by norm_num) (by norm_num) (by norm_num)
  obtain ⟨e1, e2⟩ := fit_one _ _ _ _ _ _ _ _ _ _ (by norm_num) out hout
  refine ⟨out, hout, ?_, ?_⟩
  · simp [misfit, powerLaw, sum_range_succ]
    norm_num
  · obtain ⟨_, h2, h3, h4, h5, h6⟩ := sums_fields 3 (fun v => if v = 1 then 5 else 1) (fun v => if v = 2 then 0 else 1)
      (fun _ => 1) (fun v => (if v = 1 then Real.exp 1 else 1) / 1) 0 1
    have k2 := h2.trans (show _ = (4 : ℝ) by simp [jac0, jac1, residual, sum_range_succ]; norm_num)
    have k3 := h3.trans (show _ = (4 : ℝ) by simp [jac1, residual, sum_range_succ]; norm_num)
    have k4 := h4.trans (show _ = (1 : ℝ) by simp [jac0, jac1, sum_range_succ])
    have k5 := h5.trans (show _ = (1 : ℝ) by simp [jac0, jac1, sum_range_succ])
    have k6 := h6.trans (show _ = (2 : ℝ) by simp [jac1, sum_range_succ]; norm_num)
    have hdet : detOf (sums 3 (fun v => if v = 1 then 5 else 1) (fun v => if v = 2 then 0 else 1)
      (fun _ => 1) (fun v => (if v = 1 then Real.exp 1 else 1) / 1) 0 1) (1 / 1000000000000) = 1 := by
      unfold detOf
      rw [k4, k5, k6]
      norm_num
    have a1 : out.alpha = 4 := by rw [e1, stepAlpha, hdet, k2, k3, k5, k6]; norm_num
    have a2 : out.i0 = 1 := by rw [e2, stepI0, hdet, k2, k3, k4, k5]; norm_num
    rw [a1, a2]
    have he : (40 : ℝ) < Real.exp 4 := by
      have h1 := Real.exp_one_gt_d9
      have : Real.exp 4 = Real.exp 1 ^ 4 := by rw [← Real.exp_nat_mul]; norm_num
      rw [this]
      calc (40 : ℝ) < 2.7 ^ 4 := by norm_num
        _ ≤ Real.exp 1 ^ 4 := pow_le_pow_left₀ (by norm_num) (by linarith) 4
    have hm : misfit 3 (fun v => if v = 1 then 5 else 1) (fun v => if v = 2 then 0 else 1) (fun _ => 1)
        (fun v => (if v = 1 then Real.exp 1 else 1) / 1) 4 1 = (5 - Real.exp 4) ^ 2 := by
      have : Real.exp 1 ^ (4 : ℝ) = Real.exp 4 := by rw [← Real.exp_mul]; norm_num
      simp only [misfit, powerLaw, sum_range_succ, sum_range_zero]
      norm_num
    rw [hm]
    nlinarith

/-- Three channels of weight 1 at 1, 2 and 3 times the reference frequency determine a component. -/
example : Determined 3 (fun _ => 1) (fun v => (v : ℝ) + 1) 1 (fun _ => 1) where
  ref := one_pos
  posf := fun v _ => by positivity
  posw := fun _ _ => zero_le_one
  two := ⟨0, 1, by omega, by omega, by norm_num, one_pos, one_pos, one_ne_zero, one_ne_zero⟩

end Verif.ModelData
