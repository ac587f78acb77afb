/-
C144: what spectral index fits do not depend on, and what they do.
-/
import Verif.ModelData.SpectralProps

set_option autoImplicit false

namespace Verif.ModelData

open Finset

/-! ## Lemmas -/

theorem sums_ext {a b : Sums} (h1 : a.lik = b.lik) (h2 : a.jr0 = b.jr0) (h3 : a.jr1 = b.jr1) (h4 : a.hess00 = b.hess00)
    (h5 : a.hess01 = b.hess01) (h6 : a.hess11 = b.hess11) : a = b := by
  cases a; cases b; simp_all

/-- Fits with the same sums at all points are the same. -/
theorem fitComponent_congr {n n' : Nat} (hn : n = n') {data weights freqs beam data' weights' freqs' beam' : Nat → ℝ}
    {freq0 freq0' : ℝ} (hs : ∀ alpha i0, sums n' data' weights' beam' (fun v => freqs' v / freq0') alpha i0 =
      sums n data weights beam (fun v => freqs v / freq0) alpha i0) (alpha0 i00 tol : ℝ) (maxiter : Nat) (mindet : ℝ) :
    fitComponent n' data' weights' freqs' freq0' beam' alpha0 i00 tol maxiter mindet =
      fitComponent n data weights freqs freq0 beam alpha0 i00 tol maxiter mindet := by
  subst hn
  have hl : ∀ left s, fitLoop n data' weights' beam' (fun v => freqs' v / freq0') mindet tol left s =
      fitLoop n data weights beam (fun v => freqs v / freq0) mindet tol left s := by
    intro left
    induction left with
    | zero => intro s; rfl
    | succ left ih =>
      intro s
      have hst : fitStep n data' weights' beam' (fun v => freqs' v / freq0') mindet s =
          fitStep n data weights beam (fun v => freqs v / freq0) mindet s := by
        simp only [fitStep, hs]
      simp only [fitLoop, ih, hst]
  simp only [fitComponent, hl]

theorem sums_perm (n : Nat) (σ : Equiv.Perm Nat) (hσ : ∀ v, σ v < n ↔ v < n) (data weights beam w : Nat → ℝ) (alpha i0 : ℝ) :
    sums n (fun v => data (σ v)) (fun v => weights (σ v)) (fun v => beam (σ v)) (fun v => w (σ v)) alpha i0 =
      sums n data weights beam w alpha i0 := by
  have h : ∀ F : Nat → ℝ, ∑ v ∈ range n, F (σ v) = ∑ v ∈ range n, F v := by
    intro F
    refine Finset.sum_equiv σ (fun v => ?_) (fun _ _ => rfl)
    simp [hσ]
  obtain ⟨a1, a2, a3, a4, a5, a6⟩ := sums_fields n data weights beam w alpha i0
  obtain ⟨b1, b2, b3, b4, b5, b6⟩ := sums_fields n (fun v => data (σ v)) (fun v => weights (σ v)) (fun v => beam (σ v))
    (fun v => w (σ v)) alpha i0
  refine sums_ext ?_ ?_ ?_ ?_ ?_ ?_
  · rw [a1, ← h, b1]; rfl
  · rw [a2, ← h, b2]; rfl
  · rw [a3, ← h, b3]; rfl
  · rw [a4, ← h, b4]; rfl
  · rw [a5, ← h, b5]; rfl
  · rw [a6, ← h, b6]; rfl

/-- The nearest channel, if there is only one. -/
theorem refFreqIdx_unique (n : Nat) (freqs : Nat → ℝ) (freq0 : ℝ) (m : Nat) (hm : m < n)
    (h : ∀ v < n, v ≠ m → |freqs m - freq0| < |freqs v - freq0|) : refFreqIdx n freqs freq0 = m := by
  have : (fun k best => best < n ∧ (m < k → best = m)) n (refFreqIdx n freqs freq0) := by
    unfold refFreqIdx
    refine forRange_inv (fun k best => best < n ∧ (m < k → best = m)) ⟨by omega, fun h => absurd h (by omega)⟩ ?_
    intro k best hk ⟨hb, hi⟩
    by_cases hlt : |freqs k - freq0| < |freqs best - freq0|
    · rw [if_pos hlt]
      refine ⟨hk, fun hmk => ?_⟩
      by_contra hne
      have hbm := hi (by omega)
      rw [hbm] at hlt
      exact absurd hlt (not_lt.2 (h k hk hne).le)
    · rw [if_neg hlt]
      refine ⟨hb, fun hmk => ?_⟩
      by_cases hmk' : m < k
      · exact hi hmk'
      · have : m = k := by omega
        by_contra hne
        rw [← this] at hlt
        exact hlt (h best hb hne)
  exact this.2 hm

/-! ## C144: frequencies and channels -/

/-- C144. The unit of frequency does not matter. -/
theorem C144_frequency_unit (n : Nat) (data weights freqs : Nat → ℝ) (freq0 : ℝ) (alphai i0i : Option ℝ)
    (beam : Option (Nat → ℝ)) (tol : ℝ) (maxiter : Nat) (float64 : Option Bool) (c : ℝ) (hc : 0 < c) :
    fitSpi n data weights (fun v => c * freqs v) (c * freq0) alphai i0i beam tol maxiter float64 =
      fitSpi n data weights freqs freq0 alphai i0i beam tol maxiter float64 := by
  have hidx : refFreqIdx n (fun v => c * freqs v) (c * freq0) = refFreqIdx n freqs freq0 := by
    unfold refFreqIdx
    congr 1
    funext v best
    simp only [← mul_sub, abs_mul, abs_of_pos hc, mul_lt_mul_iff_right₀ hc]
  have hdiv : ∀ v, c * freqs v / (c * freq0) = freqs v / freq0 := fun v => mul_div_mul_left _ _ hc.ne'
  unfold fitSpi
  rw [hidx]
  cases float64 with
  | none => rfl
  | some b =>
    simp only []
    refine fitComponent_congr rfl (fun alpha i0 => ?_) _ _ _ _ _
    simp only [hdiv]

/-- C144. The order of the channels does not matter when a starting intensity is given, or when one channel is nearest to the
reference frequency. -/
theorem C144_channels (n : Nat) (data weights freqs : Nat → ℝ) (freq0 : ℝ) (alphai i0i : Option ℝ)
    (beam : Option (Nat → ℝ)) (tol : ℝ) (maxiter : Nat) (float64 : Option Bool) (σ : Equiv.Perm Nat) (hσ : ∀ v, σ v < n ↔ v < n)
    (h0 : i0i.isSome ∨ ∃ m < n, ∀ v < n, v ≠ m → |freqs m - freq0| < |freqs v - freq0|) :
    fitSpi n (fun v => data (σ v)) (fun v => weights (σ v)) (fun v => freqs (σ v)) freq0 alphai i0i
      (beam.map fun b v => b (σ v)) tol maxiter float64 =
      fitSpi n data weights freqs freq0 alphai i0i beam tol maxiter float64 := by
  have hbeam : ((beam.map fun b v => b (σ v)).getD fun _ => 1) = fun v => (beam.getD fun _ => 1) (σ v) := by
    cases beam <;> rfl
  have hi : i0i.getD (data (σ (refFreqIdx n (fun v => freqs (σ v)) freq0)) /
      (beam.getD fun _ => 1) (σ (refFreqIdx n (fun v => freqs (σ v)) freq0))) =
      i0i.getD (data (refFreqIdx n freqs freq0) / (beam.getD fun _ => 1) (refFreqIdx n freqs freq0)) := by
    rcases h0 with h0 | ⟨m, hm, h0⟩
    · cases i0i with
      | none => simp at h0
      | some x => rfl
    · have e1 := refFreqIdx_unique n freqs freq0 m hm h0
      have e2 := refFreqIdx_unique n (fun v => freqs (σ v)) freq0 (σ.symm m)
        ((hσ _).1 (by rw [Equiv.apply_symm_apply]; exact hm)) (fun v hv hne => by
          simp only [Equiv.apply_symm_apply]
          exact h0 (σ v) ((hσ v).2 hv) fun h => hne (by rw [← h, Equiv.symm_apply_apply]))
      rw [e1, e2, Equiv.apply_symm_apply]
  unfold fitSpi
  cases float64 with
  | none => rfl
  | some b =>
    simp only [hbeam]
    rw [hi]
    exact fitComponent_congr rfl (fun alpha i0 => sums_perm n σ hσ data weights _ (fun v => freqs v / freq0) alpha i0) _ _ _ _ _

/-! ## C144: weights -/

/-- The sums for weights multiplied by a number. -/
theorem sums_scale (n : Nat) (data weights beam w : Nat → ℝ) (alpha i0 c : ℝ) :
    let s := sums n data weights beam w alpha i0
    sums n data (fun v => c * weights v) beam w alpha i0 =
      ⟨c * s.lik, c * s.jr0, c * s.jr1, c * s.hess00, c * s.hess01, c * s.hess11⟩ := by
  intro s
  obtain ⟨a1, a2, a3, a4, a5, a6⟩ := sums_fields n data weights beam w alpha i0
  obtain ⟨b1, b2, b3, b4, b5, b6⟩ := sums_fields n data (fun v => c * weights v) beam w alpha i0
  refine sums_ext ?_ ?_ ?_ ?_ ?_ ?_
  · rw [b1, show s.lik = _ from a1, mul_sum]; exact sum_congr rfl fun _ _ => by ring
  · rw [b2, show s.jr0 = _ from a2, mul_sum]; exact sum_congr rfl fun _ _ => by ring
  · rw [b3, show s.jr1 = _ from a3, mul_sum]; exact sum_congr rfl fun _ _ => by ring
  · rw [b4, show s.hess00 = _ from a4, mul_sum]; exact sum_congr rfl fun _ _ => by ring
  · rw [b5, show s.hess01 = _ from a5, mul_sum]; exact sum_congr rfl fun _ _ => by ring
  · rw [b6, show s.hess11 = _ from a6, mul_sum]; exact sum_congr rfl fun _ _ => by ring

/-- The determinant of the normal matrix before it is bounded from below (model/spi/component_spi.py:43). -/
noncomputable def determinant (n : Nat) (weights beam w : Nat → ℝ) (s : FitState) : ℝ :=
  (∑ v ∈ range n, weights v * (s.i0 * (beam v * w v ^ s.alpha) * Real.log (w v)) ^ 2) *
    (∑ v ∈ range n, weights v * (beam v * w v ^ s.alpha) ^ 2) -
    (∑ v ∈ range n, weights v * ((s.i0 * (beam v * w v ^ s.alpha) * Real.log (w v)) * (beam v * w v ^ s.alpha))) ^ 2

theorem determinant_eq (n : Nat) (data weights beam w : Nat → ℝ) (s : FitState) :
    determinant n weights beam w s = (sums n data weights beam w s.alpha s.i0).hess00 *
      (sums n data weights beam w s.alpha s.i0).hess11 - (sums n data weights beam w s.alpha s.i0).hess01 ^ 2 := by
  obtain ⟨_, _, _, a4, a5, a6⟩ := sums_fields n data weights beam w s.alpha s.i0
  rw [a4, a5, a6, determinant]
  congr 1
  · congr 1
    · exact sum_congr rfl fun _ _ => by simp only [jac0, jac1]; ring
    · exact sum_congr rfl fun _ _ => by simp only [jac1]; ring
  · congr 1
    exact sum_congr rfl fun _ _ => by simp only [jac0, jac1]; ring

/-- The state after `j` iterations, or fewer if the fit has converged (for model/spi/component_spi.py:23-47). -/
noncomputable def iterate (n : Nat) (data weights freqs : Nat → ℝ) (freq0 : ℝ) (beam : Nat → ℝ) (alpha0 i00 tol mindet : ℝ)
    (j : Nat) : FitState :=
  fitLoop n data weights beam (fun v => freqs v / freq0) mindet tol j ⟨1, 0, alpha0, i00, none⟩

theorem fitLoop_succ (n : Nat) (data weights beam w : Nat → ℝ) (mindet tol : ℝ) (j : Nat) :
    ∀ s, fitLoop n data weights beam w mindet tol (j + 1) s =
      open Classical in
      if (fitLoop n data weights beam w mindet tol j s).eps > tol then
        fitStep n data weights beam w mindet (fitLoop n data weights beam w mindet tol j s)
      else fitLoop n data weights beam w mindet tol j s := by
  induction j with
  | zero => intro s; rfl
  | succ j ih =>
    intro s
    rw [fitLoop]
    by_cases h : s.eps > tol
    · rw [if_pos h, ih (fitStep n data weights beam w mindet s)]
      have : fitLoop n data weights beam w mindet tol (j + 1) s =
          fitLoop n data weights beam w mindet tol j (fitStep n data weights beam w mindet s) := by
        rw [fitLoop, if_pos h]
      rw [this]
    · rw [if_neg h]
      have : fitLoop n data weights beam w mindet tol (j + 1) s = s := by rw [fitLoop, if_neg h]
      rw [this, if_neg h]

/-- Two relations of sums that give the same steps keep the loops together, as long as they hold at the visited points. -/
theorem weights_loop (n : Nat) (data weights beam w : Nat → ℝ) (mindet tol c : ℝ) (hc : 0 < c) (s0 : FitState) (j : Nat)
    (hdet : ∀ i < j, mindet ≤ determinant n weights beam w (fitLoop n data weights beam w mindet tol i s0) ∧
      mindet ≤ c ^ 2 * determinant n weights beam w (fitLoop n data weights beam w mindet tol i s0)) :
    let s := fitLoop n data weights beam w mindet tol j s0
    let s' := fitLoop n data (fun v => c * weights v) beam w mindet tol j s0
    s'.eps = s.eps ∧ s'.k = s.k ∧ s'.alpha = s.alpha ∧ s'.i0 = s.i0 ∧
      (s'.last = s0.last ∧ s.last = s0.last ∨ ∃ su su', s.last = some su ∧ s'.last = some su' ∧
        su' = ⟨c * su.lik, c * su.jr0, c * su.jr1, c * su.hess00, c * su.hess01, c * su.hess11⟩ ∧
        detOf su' mindet = c ^ 2 * detOf su mindet) := by
  induction j with
  | zero => exact ⟨rfl, rfl, rfl, rfl, Or.inl ⟨rfl, rfl⟩⟩
  | succ j ih =>
    have ih := ih fun i hi => hdet i (by omega)
    simp only [fitLoop_succ]
    simp only at ih
    obtain ⟨h1, h2, h3, h4, h5⟩ := ih
    obtain ⟨d1, d2⟩ := hdet j (by omega)
    set s := fitLoop n data weights beam w mindet tol j s0
    set s' := fitLoop n data (fun v => c * weights v) beam w mindet tol j s0
    rw [determinant_eq n data] at d1 d2
    by_cases he : s.eps > tol
    · have he' : s'.eps > tol := by rw [h1]; exact he
      simp only [if_pos he, if_pos he']
      have hsu := sums_scale n data weights beam w s.alpha s.i0 c
      simp only at hsu
      set su := sums n data weights beam w s.alpha s.i0
      have hdd : detOf (sums n data (fun v => c * weights v) beam w s.alpha s.i0) mindet = c ^ 2 * detOf su mindet := by
        unfold detOf
        rw [hsu]
        simp only
        rw [max_eq_left d1, max_eq_left]
        · ring
        · calc mindet ≤ _ := d2
            _ = _ := by ring
      have ha : stepAlpha (sums n data (fun v => c * weights v) beam w s.alpha s.i0) mindet s.alpha = stepAlpha su mindet s.alpha := by
        unfold stepAlpha
        rw [hdd, hsu]
        simp only
        rw [show c * su.hess11 * (c * su.jr0) - c * su.hess01 * (c * su.jr1) =
          c ^ 2 * (su.hess11 * su.jr0 - su.hess01 * su.jr1) by ring, mul_div_mul_left _ _ (pow_ne_zero 2 hc.ne')]
      have hi : stepI0 (sums n data (fun v => c * weights v) beam w s.alpha s.i0) mindet s.i0 = stepI0 su mindet s.i0 := by
        unfold stepI0
        rw [hdd, hsu]
        simp only
        rw [show -(c * su.hess01) * (c * su.jr0) + c * su.hess00 * (c * su.jr1) =
          c ^ 2 * (-su.hess01 * su.jr0 + su.hess00 * su.jr1) by ring, mul_div_mul_left _ _ (pow_ne_zero 2 hc.ne')]
      refine ⟨?_, ?_, ?_, ?_, Or.inr ⟨su, sums n data (fun v => c * weights v) beam w s'.alpha s'.i0, rfl, rfl, ?_, ?_⟩⟩
      · simp only [fitStep, h3, h4, ha, hi]; rfl
      · simp only [fitStep, h2]
      · simp only [fitStep, h3, h4, ha]; rfl
      · simp only [fitStep, h3, h4, hi]; rfl
      · rw [h3, h4]; exact hsu
      · rw [h3, h4]; exact hdd
    · have he' : ¬ s'.eps > tol := by rw [h1]; exact he
      simp only [if_neg he, if_neg he']
      exact ⟨h1, h2, h3, h4, h5⟩

/-- C144, part proved: multiplying all weights by a number changes nothing, not even the variances, as long as the determinant
of the normal matrix is not below its bound at any point that the fit visits, before and after. -/
theorem C144_weights_partial (n : Nat) (data weights freqs : Nat → ℝ) (freq0 : ℝ) (beam : Nat → ℝ) (alpha0 i00 tol : ℝ)
    (maxiter : Nat) (mindet c : ℝ) (hc : 0 < c)
    (hdet : ∀ j < maxiter,
      mindet ≤ determinant n weights beam (fun v => freqs v / freq0)
        (iterate n data weights freqs freq0 beam alpha0 i00 tol mindet j) ∧
      mindet ≤ c ^ 2 * determinant n weights beam (fun v => freqs v / freq0)
        (iterate n data weights freqs freq0 beam alpha0 i00 tol mindet j)) :
    fitComponent n data (fun v => c * weights v) freqs freq0 beam alpha0 i00 tol maxiter mindet =
      fitComponent n data weights freqs freq0 beam alpha0 i00 tol maxiter mindet := by
  obtain ⟨_, _, h3, h4, h5⟩ := weights_loop n data weights beam (fun v => freqs v / freq0) mindet tol c hc
    ⟨1, 0, alpha0, i00, none⟩ maxiter hdet
  simp only [fitComponent]
  rcases h5 with ⟨h5, h6⟩ | ⟨su, su', h5, h6, h7, h8⟩
  · rw [h5, h6]
  · rw [h5, h6]
    simp only [h3, h4, h8]
    rw [h7]
    simp only
    have e : ∀ h l d : ℝ, c * h / (c ^ 2 * d) * (c * l) = h / d * l := by
      intro h l d
      by_cases hd : d = 0
      · simp [hd]
      · field_simp
    simp only [e]

/-- Three channels with frequencies 1, e, 1, data 1, 2, 1 and one iteration from index zero and intensity one
(for model/spi/component_spi.py:23-47). -/
noncomputable def demoFreqs (v : Nat) : ℝ := if v = 1 then Real.exp 1 else 1

theorem demo_sums (W c : ℝ) (m : Nat) :
    sums (3 + m) (fun v => c * if v = 1 then 2 else 1) (fun v => if v < 3 then W else 0) (fun _ => 1)
      (fun v => demoFreqs v / 1) 0 c =
    ⟨c ^ 2 * W, c ^ 2 * W, c * W, c ^ 2 * W, c * W, 3 * W⟩ := by
  obtain ⟨a1, a2, a3, a4, a5, a6⟩ := sums_fields (3 + m) (fun v => c * if v = 1 then 2 else 1) (fun v => if v < 3 then W else 0)
    (fun _ => 1) (fun v => demoFreqs v / 1) 0 c
  have hz : ∀ F : Nat → ℝ, (∀ v, 3 ≤ v → F v = 0) → ∑ v ∈ range (3 + m), F v = F 0 + F 1 + F 2 := by
    intro F hF
    rw [sum_range_add, sum_eq_zero (fun v _ => hF (3 + v) (by omega)), add_zero]
    simp [sum_range_succ]
  refine sums_ext ?_ ?_ ?_ ?_ ?_ ?_
  · rw [a1, hz _ fun v hv => by rw [if_neg (by omega)]; ring]
    simp [residual, jac1, demoFreqs]; ring
  · rw [a2, hz _ fun v hv => by rw [if_neg (by omega)]; ring]
    simp [residual, jac0, jac1, demoFreqs]; ring
  · rw [a3, hz _ fun v hv => by rw [if_neg (by omega)]; ring]
    simp [residual, jac1, demoFreqs]; ring
  · rw [a4, hz _ fun v hv => by rw [if_neg (by omega)]; ring]
    simp [jac0, jac1, demoFreqs]; ring
  · rw [a5, hz _ fun v hv => by rw [if_neg (by omega)]; ring]
    simp [jac0, jac1, demoFreqs]
  · rw [a6, hz _ fun v hv => by rw [if_neg (by omega)]; ring]
    simp [jac1, demoFreqs]; ring

theorem demo_fit (W c : ℝ) (m : Nat) :
    fitSpi (3 + m) (fun v => c * if v = 1 then 2 else 1) (fun v => if v < 3 then W else 0) demoFreqs 1 (some 0) (some c) none
      (1 / 10 ^ 4) 1 (some true) =
    .ok ⟨2 * (c * W) ^ 2 / max (2 * (c * W) ^ 2) (1 / 10 ^ 12),
      3 * W / max (2 * (c * W) ^ 2) (1 / 10 ^ 12) * (c ^ 2 * W) / (1 + m), c,
      c ^ 2 * W / max (2 * (c * W) ^ 2) (1 / 10 ^ 12) * (c ^ 2 * W) / (1 + m)⟩ := by
  have hdet : detOf ⟨c ^ 2 * W, c ^ 2 * W, c * W, c ^ 2 * W, c * W, 3 * W⟩ (1 / 10 ^ 12) = max (2 * (c * W) ^ 2) (1 / 10 ^ 12) := by
    unfold detOf
    simp only
    congr 1
    ring
  have hl : fitLoop (3 + m) (fun v => c * if v = 1 then 2 else 1) (fun v => if v < 3 then W else 0) (fun _ => 1)
      (fun v => demoFreqs v / 1) (1 / 10 ^ 12) (1 / 10 ^ 4) 1 ⟨1, 0, 0, c, none⟩ =
      fitStep (3 + m) (fun v => c * if v = 1 then 2 else 1) (fun v => if v < 3 then W else 0) (fun _ => 1)
      (fun v => demoFreqs v / 1) (1 / 10 ^ 12) ⟨1, 0, 0, c, none⟩ := by
    rw [fitLoop, if_pos (by norm_num), fitLoop]
  unfold fitSpi
  simp only [Option.getD_some, Option.getD_none, if_true, fitComponent]
  rw [hl]
  simp only [fitStep, demo_sums W c m]
  rw [if_neg (by omega)]
  simp only [stepAlpha, stepI0, hdet]
  congr 2
  · rw [zero_add]; congr 1; ring
  · push_cast; ring
  · rw [show -(c * W) * (c ^ 2 * W) + c ^ 2 * W * (c * W) = 0 by ring, zero_div, add_zero]
  · push_cast; ring

/-- C144 is violated for weights: the determinant of the normal matrix is bounded from below by a fixed number, so that with
small weights the fit hardly moves. One iteration finds index 1 with weights 1, and 1/50 with weights 1e-7. -/
theorem C144_weights_violated : ∃ (data freqs : Nat → ℝ) (out out' : FitOut),
    fitSpi 3 data (fun _ => 1) freqs 1 (some 0) (some 1) none (1 / 10 ^ 4) 1 (some true) = .ok out ∧
    fitSpi 3 data (fun _ => 1 / 10 ^ 7 * 1) freqs 1 (some 0) (some 1) none (1 / 10 ^ 4) 1 (some true) = .ok out' ∧
    out.alpha = 1 ∧ out'.alpha = 1 / 50 := by
  have hw : ∀ W : ℝ, fitSpi 3 (fun v => 1 * if v = 1 then 2 else 1) (fun _ => W) demoFreqs 1 (some 0) (some 1) none
      (1 / 10 ^ 4) 1 (some true) = fitSpi 3 (fun v => 1 * if v = 1 then 2 else 1) (fun v => if v < 3 then W else 0) demoFreqs 1
      (some 0) (some 1) none (1 / 10 ^ 4) 1 (some true) := by
    intro W
    unfold fitSpi
    refine fitComponent_congr rfl (fun alpha i0 => ?_) _ _ _ _ _
    obtain ⟨a1, a2, a3, a4, a5, a6⟩ := sums_fields 3 (fun v => 1 * if v = 1 then 2 else 1) (fun _ => W)
      ((none : Option (Nat → ℝ)).getD fun _ => 1) (fun v => demoFreqs v / 1) alpha i0
    obtain ⟨b1, b2, b3, b4, b5, b6⟩ := sums_fields 3 (fun v => 1 * if v = 1 then 2 else 1) (fun v => if v < 3 then W else 0)
      ((none : Option (Nat → ℝ)).getD fun _ => 1) (fun v => demoFreqs v / 1) alpha i0
    have hif : ∀ v ∈ range 3, (if v < 3 then W else 0) = W := fun v hv => if_pos (mem_range.1 hv)
    refine sums_ext ?_ ?_ ?_ ?_ ?_ ?_
    · rw [a1, b1]; exact sum_congr rfl fun v hv => by rw [hif v hv]
    · rw [a2, b2]; exact sum_congr rfl fun v hv => by rw [hif v hv]
    · rw [a3, b3]; exact sum_congr rfl fun v hv => by rw [hif v hv]
    · rw [a4, b4]; exact sum_congr rfl fun v hv => by rw [hif v hv]
    · rw [a5, b5]; exact sum_congr rfl fun v hv => by rw [hif v hv]
    · rw [a6, b6]; exact sum_congr rfl fun v hv => by rw [hif v hv]
  refine ⟨fun v => 1 * if v = 1 then 2 else 1, demoFreqs, _, _, (hw 1).trans (demo_fit 1 1 0),
    (hw (1 / 10 ^ 7 * 1)).trans (demo_fit (1 / 10 ^ 7 * 1) 1 0), ?_, ?_⟩
  · simp only
    rw [max_eq_left (by norm_num)]
    norm_num
  · simp only
    rw [max_eq_right (by norm_num)]
    norm_num

/-! ## C144: channels without weight -/

theorem sums_zero_weight (n m : Nat) (data weights beam w : Nat → ℝ) (hw : ∀ v, n ≤ v → v < n + m → weights v = 0) (alpha i0 : ℝ) :
    sums (n + m) data weights beam w alpha i0 = sums n data weights beam w alpha i0 := by
  have hz : ∀ F : Nat → ℝ, (∀ v, n ≤ v → v < n + m → F v = 0) → ∑ v ∈ range (n + m), F v = ∑ v ∈ range n, F v := by
    intro F hF
    rw [sum_range_add, sum_eq_zero (fun v hv => hF (n + v) (by omega) (by have := mem_range.1 hv; omega)), add_zero]
  obtain ⟨a1, a2, a3, a4, a5, a6⟩ := sums_fields (n + m) data weights beam w alpha i0
  obtain ⟨b1, b2, b3, b4, b5, b6⟩ := sums_fields n data weights beam w alpha i0
  refine sums_ext ?_ ?_ ?_ ?_ ?_ ?_
  · rw [a1, b1]; exact hz _ fun v h1 h2 => by rw [hw v h1 h2]; ring
  · rw [a2, b2]; exact hz _ fun v h1 h2 => by rw [hw v h1 h2]; ring
  · rw [a3, b3]; exact hz _ fun v h1 h2 => by rw [hw v h1 h2]; ring
  · rw [a4, b4]; exact hz _ fun v h1 h2 => by rw [hw v h1 h2]; ring
  · rw [a5, b5]; exact hz _ fun v h1 h2 => by rw [hw v h1 h2]; ring
  · rw [a6, b6]; exact hz _ fun v h1 h2 => by rw [hw v h1 h2]; ring

/-- C144, part proved: further channels of weight zero do not change index and intensity, whatever their data; the variances
change with the number of channels. -/
theorem C144_zero_weight_partial (n m : Nat) (data weights freqs : Nat → ℝ) (freq0 : ℝ) (beam : Nat → ℝ) (alpha0 i00 tol : ℝ)
    (maxiter : Nat) (mindet : ℝ) (hn : 2 < n) (hw : ∀ v, n ≤ v → v < n + m → weights v = 0) (out : FitOut)
    (h : fitComponent n data weights freqs freq0 beam alpha0 i00 tol maxiter mindet = .ok out) :
    ∃ out', fitComponent (n + m) data weights freqs freq0 beam alpha0 i00 tol maxiter mindet = .ok out' ∧
      out'.alpha = out.alpha ∧ out'.i0 = out.i0 ∧
      out'.alphaVar * ((n : ℝ) + m - 2) = out.alphaVar * ((n : ℝ) - 2) ∧
      out'.i0Var * ((n : ℝ) + m - 2) = out.i0Var * ((n : ℝ) - 2) := by
  have hl : ∀ left s, fitLoop (n + m) data weights beam (fun v => freqs v / freq0) mindet tol left s =
      fitLoop n data weights beam (fun v => freqs v / freq0) mindet tol left s := by
    intro left
    induction left with
    | zero => intro s; rfl
    | succ left ih =>
      intro s
      have hst : fitStep (n + m) data weights beam (fun v => freqs v / freq0) mindet s =
          fitStep n data weights beam (fun v => freqs v / freq0) mindet s := by
        simp only [fitStep, sums_zero_weight n m data weights beam _ hw]
      simp only [fitLoop, ih, hst]
  simp only [fitComponent, hl] at h ⊢
  have hn' : (2 : ℝ) < n := by exact_mod_cast hn
  have hm' : (0 : ℝ) ≤ m := Nat.cast_nonneg m
  split at h
  · cases h
  · rename_i su hsu
    rw [if_neg (by omega)] at h
    injection h with h
    rw [if_neg (by omega)]
    refine ⟨_, rfl, ?_, ?_, ?_, ?_⟩
    · rw [← h]
    · rw [← h]
    · rw [← h]
      simp only
      push_cast
      rw [div_mul_cancel₀ _ (by linarith), div_mul_cancel₀ _ (by linarith)]
    · rw [← h]
      simp only
      push_cast
      rw [div_mul_cancel₀ _ (by linarith), div_mul_cancel₀ _ (by linarith)]

/-- C144 is violated for the variances: they count channels of weight zero as measurements. -/
theorem C144_zero_weight_violated : ∃ (data weights freqs : Nat → ℝ) (out out' : FitOut), weights 3 = 0 ∧
    fitSpi 3 data weights freqs 1 (some 0) (some 1) none (1 / 10 ^ 4) 1 (some true) = .ok out ∧
    fitSpi 4 data weights freqs 1 (some 0) (some 1) none (1 / 10 ^ 4) 1 (some true) = .ok out' ∧
    out.alphaVar = 3 / 2 ∧ out'.alphaVar = 3 / 4 := by
  refine ⟨fun v => 1 * if v = 1 then 2 else 1, fun v => if v < 3 then 1 else 0, demoFreqs, _, _, by norm_num,
    demo_fit 1 1 0, demo_fit 1 1 1, ?_, ?_⟩
  · simp only
    rw [max_eq_left (by norm_num)]
    norm_num
  · simp only
    rw [max_eq_left (by norm_num)]
    norm_num

/-! ## C144: the unit of flux density -/

/-- C144, part proved: in other units of flux density (data and intensity times `c`, weights over `c²`) an iteration gives the same
index and the intensity in the new unit, if the bound of the determinant is adapted. -/
theorem C144_flux_unit_partial (n : Nat) (data weights beam w : Nat → ℝ) (mindet c : ℝ) (hc : 0 < c) (s : FitState) :
    let t := fitStep n data weights beam w mindet s
    let t' := fitStep n (fun v => c * data v) (fun v => weights v / c ^ 2) beam w (mindet / c ^ 2) { s with i0 := c * s.i0 }
    t'.alpha = t.alpha ∧ t'.i0 = c * t.i0 := by
  intro t t'
  have hr : ∀ v, residual (fun v => c * data v) beam w s.alpha (c * s.i0) v = c * residual data beam w s.alpha s.i0 v := by
    intro v; unfold residual; ring
  have hj : ∀ v, jac0 beam w s.alpha (c * s.i0) v = c * jac0 beam w s.alpha s.i0 v := by
    intro v; unfold jac0; ring
  obtain ⟨_, a2, a3, a4, a5, a6⟩ := sums_fields n data weights beam w s.alpha s.i0
  obtain ⟨_, b2, b3, b4, b5, b6⟩ := sums_fields n (fun v => c * data v) (fun v => weights v / c ^ 2) beam w s.alpha (c * s.i0)
  have hc0 : c ≠ 0 := hc.ne'
  simp only [hr, hj] at b2 b3 b4 b5 b6
  have e2 : (sums n (fun v => c * data v) (fun v => weights v / c ^ 2) beam w s.alpha (c * s.i0)).jr0 =
      (sums n data weights beam w s.alpha s.i0).jr0 := by
    rw [b2, a2]; exact sum_congr rfl fun v _ => by field_simp
  have e3 : (sums n (fun v => c * data v) (fun v => weights v / c ^ 2) beam w s.alpha (c * s.i0)).jr1 =
      (sums n data weights beam w s.alpha s.i0).jr1 / c := by
    rw [b3, a3, sum_div]; exact sum_congr rfl fun v _ => by field_simp
  have e4 : (sums n (fun v => c * data v) (fun v => weights v / c ^ 2) beam w s.alpha (c * s.i0)).hess00 =
      (sums n data weights beam w s.alpha s.i0).hess00 := by
    rw [b4, a4]; exact sum_congr rfl fun v _ => by field_simp
  have e5 : (sums n (fun v => c * data v) (fun v => weights v / c ^ 2) beam w s.alpha (c * s.i0)).hess01 =
      (sums n data weights beam w s.alpha s.i0).hess01 / c := by
    rw [b5, a5, sum_div]; exact sum_congr rfl fun v _ => by field_simp
  have e6 : (sums n (fun v => c * data v) (fun v => weights v / c ^ 2) beam w s.alpha (c * s.i0)).hess11 =
      (sums n data weights beam w s.alpha s.i0).hess11 / c ^ 2 := by
    rw [b6, a6, sum_div]; exact sum_congr rfl fun v _ => by ring
  have ed : detOf (sums n (fun v => c * data v) (fun v => weights v / c ^ 2) beam w s.alpha (c * s.i0)) (mindet / c ^ 2) =
      detOf (sums n data weights beam w s.alpha s.i0) mindet / c ^ 2 := by
    unfold detOf
    rw [e4, e5, e6, ← max_div_div_right (by positivity : (0 : ℝ) ≤ c ^ 2)]
    congr 1
    field_simp
  constructor
  · show stepAlpha _ _ _ = stepAlpha _ _ _
    unfold stepAlpha
    simp only [e2, e3, e5, e6, ed]
    by_cases hd : detOf (sums n data weights beam w s.alpha s.i0) mindet = 0
    · simp [hd]
    · field_simp
  · show stepI0 _ _ _ = c * stepI0 _ _ _
    unfold stepI0
    simp only [e2, e3, e4, e5, ed]
    by_cases hd : detOf (sums n data weights beam w s.alpha s.i0) mindet = 0
    · simp [hd]
    · field_simp

/-- C144 is violated for the unit of flux density, as the bound of the determinant is not adapted: one iteration finds index 1
in one unit and 1/50 in a unit that is smaller by `10^7`. -/
theorem C144_flux_unit_violated : ∃ (data weights freqs : Nat → ℝ) (out out' : FitOut),
    fitSpi 3 data weights freqs 1 (some 0) (some 1) none (1 / 10 ^ 4) 1 (some true) = .ok out ∧
    fitSpi 3 (fun v => 10 ^ 7 * data v) (fun v => weights v / (10 ^ 7) ^ 2) freqs 1 (some 0) (some (10 ^ 7 * 1)) none (1 / 10 ^ 4) 1
      (some true) = .ok out' ∧
    out.alpha = 1 ∧ out'.alpha = 1 / 50 := by
  have h := demo_fit (1 / (10 ^ 7) ^ 2) (10 ^ 7) 0
  have e1 : (fun v : Nat => (10 : ℝ) ^ 7 * (1 * if v = 1 then 2 else 1)) = fun v => 10 ^ 7 * if v = 1 then 2 else 1 := by
    funext v; rw [one_mul]
  have e2 : (fun v : Nat => (if v < 3 then (1 : ℝ) else 0) / (10 ^ 7) ^ 2) = fun v => if v < 3 then 1 / (10 ^ 7) ^ 2 else 0 := by
    funext v; split <;> simp
  refine ⟨fun v => 1 * if v = 1 then 2 else 1, fun v => if v < 3 then 1 else 0, demoFreqs, _, _,
    demo_fit 1 1 0, by rw [e1, e2, mul_one]; exact h, ?_, ?_⟩
  · simp only
    rw [max_eq_left (by norm_num)]
    norm_num
  · simp only
    rw [max_eq_right (by norm_num)]
    norm_num

/-- The hypotheses of `C144_weights_partial` hold for one iteration of the example with weights 1 and 2. -/
example : ∀ j < 1,
    (1 / 10 ^ 12 : ℝ) ≤ determinant 3 (fun v => if v < 3 then 1 else 0) (fun _ => 1)
        (fun v => demoFreqs v / 1)
        (iterate 3 (fun v => 1 * if v = 1 then 2 else 1) (fun v => if v < 3 then 1 else 0) demoFreqs 1 (fun _ => 1) 0 1 (1 / 10 ^ 4) (1 / 10 ^ 12) j) ∧
    (1 / 10 ^ 12 : ℝ) ≤ 2 ^ 2 * determinant 3 (fun v => if v < 3 then 1 else 0) (fun _ => 1)
        (fun v => demoFreqs v / 1)
        (iterate 3 (fun v => 1 * if v = 1 then 2 else 1) (fun v => if v < 3 then 1 else 0) demoFreqs 1 (fun _ => 1) 0 1 (1 / 10 ^ 4) (1 / 10 ^ 12) j) := by
  intro j hj
  have : j = 0 := by omega
  subst this
  rw [determinant_eq 3 (fun v => 1 * if v = 1 then 2 else 1)]
  have e := demo_sums 1 1 0
  simp only [iterate, fitLoop]
  rw [e]
  norm_num

end Verif.ModelData
