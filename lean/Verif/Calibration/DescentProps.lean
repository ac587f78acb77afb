/-
Property C173: phase-only calibration of one direction never makes the fit worse, and comes to rest.
-/
import Verif.Calibration.DescentLemmas
import Mathlib.Analysis.Real.Pi.Bounds

set_option autoImplicit false

noncomputable section

namespace Verif.Calibration

open Complex

/-- The weighted sum of squared residuals of the unflagged data of time bin `t`, channel `nu`, correlation
`c`, for gains `g`: the prediction is the sum over directions of gain, model and conjugate gain. The row numbers are those of the arrays passed in (`m` is the first
time bin index). -/
def misfit (ndir : Nat) (idx cnt ant1 ant2 : Nat → Nat) (m : Nat) (vis : Nat → Nat → Nat → ℂ) (flagged : Nat → Nat → Bool)
    (model : Nat → Nat → Nat → Nat → ℂ) (weight : Nat → Nat → Nat → ℝ) (t nu c : Nat) (g : Arr5 ℂ) : ℝ :=
  ∑ k ∈ Finset.range (cnt t), if flagged (idx t - m + k) nu then 0 else
    weight (idx t - m + k) nu c * ‖vis (idx t - m + k) nu c - ∑ s ∈ Finset.range ndir,
      g t (ant1 (idx t - m + k)) nu s c * model (idx t - m + k) nu s c *
        (starRingEnd ℂ) (g t (ant2 (idx t - m + k)) nu s c)‖ ^ 2

/-- The sum of the weighted squared amplitudes of the unflagged model visibilities of antenna `p`. -/
def modelPower (idx cnt ant1 ant2 : Nat → Nat) (m : Nat) (flagged : Nat → Nat → Bool)
    (model : Nat → Nat → Nat → Nat → ℂ) (weight : Nat → Nat → Nat → ℝ) (t p nu c : Nat) : ℝ :=
  ∑ k ∈ Finset.range (cnt t), if flagged (idx t - m + k) nu then 0 else
    ((if ant1 (idx t - m + k) = p then 1 else 0) + (if ant2 (idx t - m + k) = p then 1 else 0)) *
      (weight (idx t - m + k) nu c * ‖model (idx t - m + k) nu 0 c‖ ^ 2)

/-- What a call of the solver for one direction is given: time bins that share no row, antenna numbers below
the number of antennas, weights that are not negative, gains of modulus one, no unflagged visibility brighter
than its model, and for every antenna, time bin, channel and correlation some unflagged model visibility with
a positive weight. -/
structure OneDirection (e : Ext5) (idx cnt ant1 ant2 : Nat → Nat) (m : Nat) (jones : Arr5 ℂ)
    (vis : Nat → Nat → Nat → ℂ) (flagged : Nat → Nat → Bool) (model : Nat → Nat → Nat → Nat → ℂ)
    (weight : Nat → Nat → Nat → ℝ) : Prop where
  dirs : e.ndir = 1
  first : IsMin e.ntim idx m
  bins : Disjoint' e.ntim idx cnt
  ants : ∀ row, ant1 row < e.nant ∧ ant2 row < e.nant
  weights : ∀ row nu c, 0 ≤ weight row nu c
  unit : ∀ t p nu s c, ‖jones t p nu s c‖ = 1
  bright : ∀ row nu c, flagged row nu = false → ‖vis row nu c‖ ≤ ‖model row nu 0 c‖
  power : ∀ t < e.ntim, ∀ p < e.nant, ∀ nu < e.nchan, ∀ c < e.ncorr,
    0 < modelPower idx cnt ant1 ant2 m flagged model weight t p nu c

section
variable {e : Ext5} {idx cnt ant1 ant2 : Nat → Nat} {m : Nat} {jones : Arr5 ℂ}
  {vis : Nat → Nat → Nat → ℂ} {flagged : Nat → Nat → Bool} {model : Nat → Nat → Nat → Nat → ℂ}
  {weight : Nat → Nat → Nat → ℝ} {tol : ℝ}

theorem npMax_attained {l : List ℝ} {x : ℝ} (h : npMax l = .ok x) : x ∈ l := by
  cases l with
  | nil => cases h
  | cons y ys =>
    simp only [npMax, Except.ok.injEq] at h
    have : ∀ (ys : List ℝ) (y : ℝ), ys.foldl max y ∈ y :: ys := by
      intro ys
      induction ys with
      | nil => intro y; simp
      | cons z zs ih =>
        intro y
        have := ih (max y z)
        rw [List.foldl_cons]
        rcases max_choice y z with h | h <;> rw [h] at this ⊢ <;> simp only [List.mem_cons] at this ⊢ <;> tauto
    rw [← h]
    exact this ys y

theorem norm_whiten (w : ℝ) (hw : 0 ≤ w) (a b : ℂ) (u v : ℂ) :
    normSq (a * (Real.sqrt w : ℂ) - u * (b * (Real.sqrt w : ℂ)) * v) = w * ‖a - u * b * v‖ ^ 2 := by
  have : a * (Real.sqrt w : ℂ) - u * (b * (Real.sqrt w : ℂ)) * v = (Real.sqrt w : ℂ) * (a - u * b * v) := by ring
  rw [this, map_mul, normSq_ofReal, Real.mul_self_sqrt hw, normSq_eq_norm_sq]

theorem sel_re (a b : Prop) [Decidable a] [Decidable b] (W r : ℂ) :
    ((starRingEnd ℂ) (((if a then I else 0) - (if b then I else 0)) * W) * r).re =
      ((if a then 1 else 0) - (if b then 1 else 0)) * ((starRingEnd ℂ) (I * W) * r).re := by
  by_cases ha : a <;> by_cases hb : b <;> simp [ha, hb]

/-- One iteration. -/
theorem gnStep_descent (hone : OneDirection e idx cnt ant1 ant2 m jones vis flagged model weight)
    (jhj : Arr5 ℝ) (j g jhr : Arr5 ℂ) (eps : ℝ) (hj : ∀ t p nu s c, ‖j t p nu s c‖ = 1)
    (hjhj : ∀ t < e.ntim, ∀ a, ∀ nu < e.nchan, ∀ c,
      jhj t a nu 0 c = modelPower idx cnt ant1 ant2 m flagged model weight t a nu c)
    (h : gnStep e idx cnt ant1 ant2 (fun r nu c => vis r nu c * (Real.sqrt (weight r nu c) : ℂ)) flagged
      (fun r nu s c => model r nu s c * (Real.sqrt (weight r nu c) : ℂ)) jhj j = .ok (g, jhr, eps)) :
    ∃ δ : Nat → Nat → Nat → Nat → ℝ,
      (∃ t < e.ntim, ∃ p < e.nant, ∃ nu < e.nchan, ∃ c < e.ncorr, eps = |δ t p nu c|) ∧
      ∀ t < e.ntim, ∀ nu < e.nchan, ∀ c < e.ncorr,
        misfit e.ndir idx cnt ant1 ant2 m vis flagged model weight t nu c g ≤
          misfit e.ndir idx cnt ant1 ant2 m vis flagged model weight t nu c j -
            2 * ∑ p ∈ Finset.range e.nant,
              modelPower idx cnt ant1 ant2 m flagged model weight t p nu c * δ t p nu c ^ 2 := by
  obtain ⟨hdir, hm, hd, hant, hw, -, hbr, hpow⟩ := hone
  set vis' : Nat → Nat → Nat → ℂ := fun r nu c => vis r nu c * (Real.sqrt (weight r nu c) : ℂ) with hvis'
  set model' : Nat → Nat → Nat → Nat → ℂ := fun r nu s c => model r nu s c * (Real.sqrt (weight r nu c) : ℂ)
    with hmodel'
  obtain ⟨res, v, hres, hv, hrel⟩ := C23_residual_diag_diag (K := ℂ) ant1 ant2 e.nchan e.ndir j vis'
    flagged model' hm hd
  have hresid : ∀ t < e.ntim, ∀ row, InBin idx cnt t (m + row) → ∀ nu < e.nchan, flagged row nu = false →
      ∀ c, res row nu c = vis' row nu c - j t (ant1 row) nu 0 c * model' row nu 0 c *
        (starRingEnd ℂ) (j t (ant2 row) nu 0 c) := by
    intro t ht row hr nu hnu hf c
    rw [(hrel t ht row hr nu hnu c).2 hf]
    have : v row nu c = ∑ s ∈ Finset.range e.ndir, j t (ant1 row) nu s c * model' row nu s c *
        (starRingEnd ℂ) (j t (ant2 row) nu s c) := by
      have hv' := hv
      unfold corruptVis at hv'
      rw [shiftIdx_ok hm] at hv'
      cases hv'
      rw [binLoop_bin (disjoint_shift hm hd) ht ((inBin_shift hm ht).2 hr) hnu, jonesMulDD_eq, zero_add]
      rfl
    rw [this, hdir, Finset.sum_range_one]
  obtain ⟨_, jhr', _, hjhr, hent⟩ := C27_entries (residual := res) (cnt := cnt) (ant1 := ant1)
    (ant2 := ant2) (nchan := e.nchan) (ndir := e.ndir) (jones := j) (model := model')
    (flagged := flagged) m hm
  unfold gnStep at h
  simp only at h
  rw [hres] at h
  simp only at h
  rw [hjhr] at h
  simp only at h
  split at h
  · cases h
  · rename_i eps' hmax
    cases h
    refine ⟨fun t p nu c => 0.5 * (jhr t p nu 0 c / (jhj t p nu 0 c : ℂ)).re, ?_, ?_⟩
    · have hmem := npMax_attained hmax
      simp only [elems, List.mem_flatMap, List.mem_map, List.mem_range] at hmem
      obtain ⟨t, ht, p, hp, nu, hnu, s, hs, c, hc, heq⟩ := hmem
      obtain rfl : s = 0 := by omega
      exact ⟨t, ht, p, hp, nu, hnu, c, hc, by rw [← heq, add_sub_cancel_left]⟩
    · intro t ht nu hnu c hc
      have hbin : ∀ k ∈ Finset.range (cnt t), InBin idx cnt t (m + (idx t - m + k)) := by
        intro k hk
        have := hm.2 t ht
        have := Finset.mem_range.1 hk
        unfold InBin
        omega
      set R := (Finset.range (cnt t)).filter fun k => flagged (idx t - m + k) nu = false with hR
      set row : Nat → Nat := fun k => idx t - m + k with hrow
      set V : Nat → ℂ := fun k => j t (ant1 (row k)) nu 0 c * model' (row k) nu 0 c *
        (starRingEnd ℂ) (j t (ant2 (row k)) nu 0 c) with hV
      have hsumR : ∀ f : Nat → ℝ, (∑ k ∈ Finset.range (cnt t), if flagged (row k) nu then 0 else f k) =
          ∑ k ∈ R, f k := by
        intro f
        rw [hR, Finset.sum_filter]
        refine Finset.sum_congr rfl fun k _ => ?_
        cases hf : flagged (row k) nu
        · rw [if_neg (by simp), if_pos rfl]
        · rw [if_pos rfl, if_neg (by simp)]
      have hnV : ∀ k, normSq (V k) = weight (row k) nu c * ‖model (row k) nu 0 c‖ ^ 2 := by
        intro k
        simp only [hV, hmodel', normSq_eq_norm_sq, norm_mul, RCLike.norm_conj, hj, mul_one, one_mul]
        rw [mul_pow, norm_real, Real.norm_eq_abs, sq_abs, Real.sq_sqrt (hw _ _ _), mul_comm]
      have hmis : ∀ f : Arr5 ℂ, misfit e.ndir idx cnt ant1 ant2 m vis flagged model weight t nu c f =
          ∑ k ∈ R, normSq (vis' (row k) nu c - f t (ant1 (row k)) nu 0 c * model' (row k) nu 0 c *
            (starRingEnd ℂ) (f t (ant2 (row k)) nu 0 c)) := by
        intro f
        unfold misfit
        rw [hsumR, hdir]
        refine Finset.sum_congr rfl fun k _ => ?_
        rw [Finset.sum_range_one]
        exact (norm_whiten _ (hw _ _ _) _ _ _ _).symm
      have hpw : ∀ p, modelPower idx cnt ant1 ant2 m flagged model weight t p nu c =
          ∑ k ∈ R, ((if ant1 (row k) = p then 1 else 0) + (if ant2 (row k) = p then 1 else 0)) *
            normSq (V k) := by
        intro p
        unfold modelPower
        rw [hsumR]
        exact Finset.sum_congr rfl fun k _ => by rw [hnV k]
      rw [hmis, hmis]
      refine rows_bound R (fun k => ant1 (row k)) (fun k => ant2 (row k)) e.nant (fun k _ => (hant _).1)
        (fun k _ => (hant _).2) (fun k => vis' (row k) nu c) V
        (fun k => exp (I * (((j t (ant1 (row k)) nu 0 c).arg +
          0.5 * (jhr t (ant1 (row k)) nu 0 c / (jhj t (ant1 (row k)) nu 0 c : ℂ)).re : ℝ) : ℂ)) *
          model' (row k) nu 0 c * (starRingEnd ℂ) (exp (I * (((j t (ant2 (row k)) nu 0 c).arg +
          0.5 * (jhr t (ant2 (row k)) nu 0 c / (jhj t (ant2 (row k)) nu 0 c : ℂ)).re : ℝ) : ℂ)))) ?_
        (fun p => 0.5 * (jhr t p nu 0 c / (jhj t p nu 0 c : ℂ)).re)
        (fun p => modelPower idx cnt ant1 ant2 m flagged model weight t p nu c)
        (fun p => (jhr t p nu 0 c).re) ?_ (fun p _ => hpw p) ?_ ?_
      · intro k hk
        have hf := (Finset.mem_filter.1 hk).2
        have h2 : ‖V k‖ ^ 2 = weight (row k) nu c * ‖model (row k) nu 0 c‖ ^ 2 := by
          rw [← normSq_eq_norm_sq]; exact hnV k
        have h1 : ‖vis' (row k) nu c‖ ^ 2 = weight (row k) nu c * ‖vis (row k) nu c‖ ^ 2 := by
          simp only [hvis', norm_mul]
          rw [mul_pow, norm_real, Real.norm_eq_abs, sq_abs, Real.sq_sqrt (hw _ _ _), mul_comm]
        refine le_of_sq_le_sq ?_ (norm_nonneg _)
        rw [h1, h2]
        exact mul_le_mul_of_nonneg_left (pow_le_pow_left₀ (norm_nonneg _) (hbr _ _ _ hf) 2) (hw _ _ _)
      · intro k hk
        have hun : ∀ z : ℂ, ‖z‖ = 1 → exp (I * (z.arg : ℂ)) = z := by
          intro z hz
          have := norm_mul_exp_arg_mul_I z
          rw [hz, ofReal_one, one_mul, mul_comm] at this
          exact this
        have e1 := hun _ (hj t (ant1 (row k)) nu 0 c)
        have e2 := hun _ (hj t (ant2 (row k)) nu 0 c)
        simp only [hV]
        conv_rhs => rw [← e1, ← e2]
        rw [conj_exp_I, conj_exp_I]
        generalize (j t (ant1 (row k)) nu 0 c).arg = x1
        generalize (j t (ant2 (row k)) nu 0 c).arg = x2
        generalize 0.5 * (jhr t (ant1 (row k)) nu 0 c / (jhj t (ant1 (row k)) nu 0 c : ℂ)).re = y1
        generalize 0.5 * (jhr t (ant2 (row k)) nu 0 c / (jhj t (ant2 (row k)) nu 0 c : ℂ)).re = y2
        have : ∀ μ : ℂ, exp (I * ((x1 + y1 : ℝ) : ℂ)) * μ * exp (-(I * ((x2 + y2 : ℝ) : ℂ))) =
            exp (I * (x1 : ℂ)) * μ * exp (-(I * (x2 : ℂ))) * exp (I * ((y1 - y2 : ℝ) : ℂ)) := by
          intro μ
          have h3 : exp (I * ((x1 + y1 : ℝ) : ℂ)) * exp (-(I * ((x2 + y2 : ℝ) : ℂ))) =
              exp (I * (x1 : ℂ)) * exp (-(I * (x2 : ℂ))) * exp (I * ((y1 - y2 : ℝ) : ℂ)) := by
            rw [← exp_add, ← exp_add, ← exp_add]
            congr 1
            push_cast
            ring
          linear_combination μ * h3
        exact this _
      · intro p hp
        have hjr := (hent t ht p nu hnu 0 (by omega) c).2
        have hre : (jhr t p nu 0 c).re = ∑ k ∈ Finset.range (cnt t), if flagged (row k) nu then 0 else
            ((if ant1 (row k) = p then 1 else 0) - (if ant2 (row k) = p then 1 else 0)) *
              ((starRingEnd ℂ) (I * V k) * (vis' (row k) nu c - V k)).re := by
          rw [hjr, re_sum]
          refine Finset.sum_congr rfl fun k hk => ?_
          have e0 : binRow idx m t k = row k := rfl
          rw [e0]
          by_cases hf : flagged (row k) nu = true
          · rw [if_pos hf, if_pos hf, zero_re]
          · rw [if_neg hf, if_neg hf, hresid t ht _ (hbin k hk) nu hnu (by simpa using hf) c]
            exact sel_re _ _ _ _
        rw [hre, hsumR]
      · intro p hp
        have hpos := hpow t ht p hp nu hnu c hc
        rw [hjhj t ht p nu hnu c]
        rw [div_ofReal_re]
        have hne := hpos.ne'
        rw [show (0.5 : ℝ) = 1 / 2 by norm_num]
        field_simp

/-- The diagonal of the normal matrix at the initial gains is the model power. -/
theorem jhj_power (hone : OneDirection e idx cnt ant1 ant2 m jones vis flagged model weight) :
    ∃ jhj, computeJhj e.ntim idx cnt ant1 ant2 e.nchan e.ndir jones
        (fun r nu s c => model r nu s c * (Real.sqrt (weight r nu c) : ℂ)) flagged = .ok jhj ∧
      ∀ t < e.ntim, ∀ a, ∀ nu < e.nchan, ∀ c,
        jhj t a nu 0 c = modelPower idx cnt ant1 ant2 m flagged model weight t a nu c := by
  obtain ⟨jhj, _, h1, _, h2⟩ := C27_entries (residual := fun _ _ _ => 0) (cnt := cnt) (ant1 := ant1)
    (ant2 := ant2) (nchan := e.nchan) (ndir := e.ndir) (jones := jones)
    (model := fun r nu s c => model r nu s c * (Real.sqrt (weight r nu c) : ℂ)) (flagged := flagged) m hone.first
  refine ⟨jhj, h1, fun t ht a nu hnu c => ?_⟩
  rw [(h2 t ht a nu hnu 0 (by rw [hone.dirs]; omega) c).1]
  unfold modelPower binRow
  refine Finset.sum_congr rfl fun k _ => ?_
  by_cases hf : flagged (idx t - m + k) nu = true
  · rw [if_pos hf, if_pos hf]
  · rw [if_neg hf, if_neg hf]
    congr 1
    simp only [normSq_eq_norm_sq, norm_mul, RCLike.norm_conj, hone.unit, mul_one, one_mul]
    rw [mul_pow, norm_real, Real.norm_eq_abs, sq_abs, Real.sq_sqrt (hone.weights _ _ _), mul_comm]

theorem misfit_nonneg (hw : ∀ row nu c, 0 ≤ weight row nu c) (t nu c : Nat) (g : Arr5 ℂ) :
    0 ≤ misfit e.ndir idx cnt ant1 ant2 m vis flagged model weight t nu c g := by
  unfold misfit
  refine Finset.sum_nonneg fun k _ => ?_
  split
  · exact le_rfl
  · exact mul_nonneg (hw _ _ _) (by positivity)

/-- What a run that returns was. -/
theorem gaussNewton_run {maxiter : Nat} {g : Arr5 ℂ} {jhj0 : Arr5 ℝ} {jhr : Arr5 ℂ} {k : Nat} {jhj : Arr5 ℝ}
    (hj : computeJhj e.ntim idx cnt ant1 ant2 e.nchan e.ndir jones
        (fun r nu s c => model r nu s c * (Real.sqrt (weight r nu c) : ℂ)) flagged = .ok jhj)
    (h : gaussNewton 5 3 e idx cnt ant1 ant2 jones vis flagged model weight tol maxiter =
      .ok (g, jhj0, jhr, k)) :
    gnWhile (gnStep e idx cnt ant1 ant2 (fun r nu c => vis r nu c * (Real.sqrt (weight r nu c) : ℂ)) flagged
      (fun r nu s c => model r nu s c * (Real.sqrt (weight r nu c) : ℂ)) jhj) tol maxiter 1 0 jones none =
      .ok (g, some jhr, k) := by
  unfold gaussNewton at h
  simp only [checkType] at h
  simp only [if_true, ne_eq, not_true_eq_false, if_false] at h
  rw [hj] at h
  simp only at h
  split at h
  · cases h
  · cases h
  · rename_i hx
    cases h
    exact hx

/-- C173 (partial: one direction, and no visibility brighter than its model). The weighted sum of squared
residuals of the returned gains does not exceed that of the initial gains, in any time bin, channel and
correlation. -/
theorem C173_descent_partial (hone : OneDirection e idx cnt ant1 ant2 m jones vis flagged model weight)
    (maxiter : Nat) (g : Arr5 ℂ) (jhj : Arr5 ℝ) (jhr : Arr5 ℂ) (k : Nat)
    (h : gaussNewton 5 3 e idx cnt ant1 ant2 jones vis flagged model weight tol maxiter = .ok (g, jhj, jhr, k))
    (t : Nat) (ht : t < e.ntim) (nu : Nat) (hnu : nu < e.nchan) (c : Nat) (hc : c < e.ncorr) :
    misfit e.ndir idx cnt ant1 ant2 m vis flagged model weight t nu c g ≤
      misfit e.ndir idx cnt ant1 ant2 m vis flagged model weight t nu c jones := by
  obtain ⟨jhj', hj1, hj2⟩ := jhj_power hone
  refine gnWhile_mono (fun j => ∀ t p nu s c, ‖j t p nu s c‖ = 1)
    (misfit e.ndir idx cnt ant1 ant2 m vis flagged model weight t nu c) ?_ 0 maxiter (Nat.zero_le _) 1 0 jones
    hone.unit none jones g none (some jhr) 0 k rfl (gaussNewton_run hj1 h)
  intro j g jhr eps hu hs
  refine ⟨gnStep_unit hs, ?_⟩
  obtain ⟨δ, -, hδ⟩ := gnStep_descent hone jhj' j g jhr eps hu hj2 hs
  refine (hδ t ht nu hnu c hc).trans ?_
  have : 0 ≤ ∑ p ∈ Finset.range e.nant,
      modelPower idx cnt ant1 ant2 m flagged model weight t p nu c * δ t p nu c ^ 2 :=
    Finset.sum_nonneg fun p hp => mul_nonneg (hone.power t ht p (Finset.mem_range.1 hp) nu hnu c hc).le
      (sq_nonneg _)
  linarith

/-- C173 (partial, as above). Allowing more iterations does not make the fit worse. -/
theorem C173_more_partial (hone : OneDirection e idx cnt ant1 ant2 m jones vis flagged model weight)
    (n n' : Nat) (hn : n ≤ n') (g g' : Arr5 ℂ) (jhj jhj' : Arr5 ℝ) (jhr jhr' : Arr5 ℂ) (k k' : Nat)
    (h : gaussNewton 5 3 e idx cnt ant1 ant2 jones vis flagged model weight tol n = .ok (g, jhj, jhr, k))
    (h' : gaussNewton 5 3 e idx cnt ant1 ant2 jones vis flagged model weight tol n' = .ok (g', jhj', jhr', k'))
    (t : Nat) (ht : t < e.ntim) (nu : Nat) (hnu : nu < e.nchan) (c : Nat) (hc : c < e.ncorr) :
    misfit e.ndir idx cnt ant1 ant2 m vis flagged model weight t nu c g' ≤
      misfit e.ndir idx cnt ant1 ant2 m vis flagged model weight t nu c g := by
  obtain ⟨jhj', hj1, hj2⟩ := jhj_power hone
  refine gnWhile_mono (fun j => ∀ t p nu s c, ‖j t p nu s c‖ = 1)
    (misfit e.ndir idx cnt ant1 ant2 m vis flagged model weight t nu c) ?_ n n' hn 1 0 jones
    hone.unit none g g' _ _ k k' (gaussNewton_run hj1 h) (gaussNewton_run hj1 h')
  intro j g jhr eps hu hs
  refine ⟨gnStep_unit hs, ?_⟩
  obtain ⟨δ, -, hδ⟩ := gnStep_descent hone _ j g jhr eps hu hj2 hs
  refine (hδ t ht nu hnu c hc).trans ?_
  have : 0 ≤ ∑ p ∈ Finset.range e.nant,
      modelPower idx cnt ant1 ant2 m flagged model weight t p nu c * δ t p nu c ^ 2 :=
    Finset.sum_nonneg fun p hp => mul_nonneg (hone.power t ht p (Finset.mem_range.1 hp) nu hnu c hc).le
      (sq_nonneg _)
  linarith

/-- The misfit of all data. -/
def totalMisfit (e : Ext5) (idx cnt ant1 ant2 : Nat → Nat) (m : Nat) (vis : Nat → Nat → Nat → ℂ)
    (flagged : Nat → Nat → Bool) (model : Nat → Nat → Nat → Nat → ℂ) (weight : Nat → Nat → Nat → ℝ)
    (g : Arr5 ℂ) : ℝ :=
  ∑ t ∈ Finset.range e.ntim, ∑ nu ∈ Finset.range e.nchan, ∑ c ∈ Finset.range e.ncorr,
    misfit e.ndir idx cnt ant1 ant2 m vis flagged model weight t nu c g

/-- One iteration lowers the misfit of all data in proportion to the square of the largest phase change. -/
theorem gnStep_total (hone : OneDirection e idx cnt ant1 ant2 m jones vis flagged model weight) (P : ℝ)
    (hP : ∀ t < e.ntim, ∀ p < e.nant, ∀ nu < e.nchan, ∀ c < e.ncorr,
      P ≤ modelPower idx cnt ant1 ant2 m flagged model weight t p nu c)
    (jhj : Arr5 ℝ) (j g jhr : Arr5 ℂ) (eps : ℝ) (hj : ∀ t p nu s c, ‖j t p nu s c‖ = 1)
    (hjhj : ∀ t < e.ntim, ∀ a, ∀ nu < e.nchan, ∀ c,
      jhj t a nu 0 c = modelPower idx cnt ant1 ant2 m flagged model weight t a nu c)
    (h : gnStep e idx cnt ant1 ant2 (fun r nu c => vis r nu c * (Real.sqrt (weight r nu c) : ℂ)) flagged
      (fun r nu s c => model r nu s c * (Real.sqrt (weight r nu c) : ℂ)) jhj j = .ok (g, jhr, eps)) :
    totalMisfit e idx cnt ant1 ant2 m vis flagged model weight g + 2 * P * eps ^ 2 ≤
      totalMisfit e idx cnt ant1 ant2 m vis flagged model weight j := by
  obtain ⟨δ, ⟨t0, ht0, p0, hp0, nu0, hnu0, c0, hc0, rfl⟩, hδ⟩ := gnStep_descent hone jhj j g jhr eps hj hjhj h
  have hnn : ∀ t < e.ntim, ∀ nu < e.nchan, ∀ c < e.ncorr, ∀ p < e.nant,
      0 ≤ modelPower idx cnt ant1 ant2 m flagged model weight t p nu c * δ t p nu c ^ 2 :=
    fun t ht nu hnu c hc p hp => mul_nonneg (hone.power t ht p hp nu hnu c hc).le (sq_nonneg _)
  have h1 : totalMisfit e idx cnt ant1 ant2 m vis flagged model weight g ≤
      ∑ t ∈ Finset.range e.ntim, ∑ nu ∈ Finset.range e.nchan, ∑ c ∈ Finset.range e.ncorr,
        (misfit e.ndir idx cnt ant1 ant2 m vis flagged model weight t nu c j -
          2 * ∑ p ∈ Finset.range e.nant,
              modelPower idx cnt ant1 ant2 m flagged model weight t p nu c * δ t p nu c ^ 2) :=
    Finset.sum_le_sum fun t ht => Finset.sum_le_sum fun nu hnu => Finset.sum_le_sum fun c hc =>
      hδ t (Finset.mem_range.1 ht) nu (Finset.mem_range.1 hnu) c (Finset.mem_range.1 hc)
  simp only [Finset.sum_sub_distrib, ← Finset.mul_sum] at h1
  have h2 : P * δ t0 p0 nu0 c0 ^ 2 ≤ ∑ t ∈ Finset.range e.ntim, ∑ nu ∈ Finset.range e.nchan,
      ∑ c ∈ Finset.range e.ncorr, ∑ p ∈ Finset.range e.nant,
        modelPower idx cnt ant1 ant2 m flagged model weight t p nu c * δ t p nu c ^ 2 := by
    have hN : ∀ t ∈ Finset.range e.ntim, ∀ nu ∈ Finset.range e.nchan, ∀ c ∈ Finset.range e.ncorr,
        0 ≤ ∑ p ∈ Finset.range e.nant,
          modelPower idx cnt ant1 ant2 m flagged model weight t p nu c * δ t p nu c ^ 2 :=
      fun t ht nu hnu c hc => Finset.sum_nonneg fun p hp => hnn t (Finset.mem_range.1 ht) nu
        (Finset.mem_range.1 hnu) c (Finset.mem_range.1 hc) p (Finset.mem_range.1 hp)
    have s1 := Finset.single_le_sum (f := fun t => ∑ nu ∈ Finset.range e.nchan,
      ∑ c ∈ Finset.range e.ncorr, ∑ p ∈ Finset.range e.nant,
        modelPower idx cnt ant1 ant2 m flagged model weight t p nu c * δ t p nu c ^ 2)
      (fun t ht => Finset.sum_nonneg fun nu hnu => Finset.sum_nonneg fun c hc => hN t ht nu hnu c hc)
      (Finset.mem_range.2 ht0)
    have s2 := Finset.single_le_sum (f := fun nu => ∑ c ∈ Finset.range e.ncorr, ∑ p ∈ Finset.range e.nant,
        modelPower idx cnt ant1 ant2 m flagged model weight t0 p nu c * δ t0 p nu c ^ 2)
      (fun nu hnu => Finset.sum_nonneg fun c hc => hN t0 (Finset.mem_range.2 ht0) nu hnu c hc)
      (Finset.mem_range.2 hnu0)
    have s3 := Finset.single_le_sum (f := fun c => ∑ p ∈ Finset.range e.nant,
        modelPower idx cnt ant1 ant2 m flagged model weight t0 p nu0 c * δ t0 p nu0 c ^ 2)
      (fun c hc => hN t0 (Finset.mem_range.2 ht0) nu0 (Finset.mem_range.2 hnu0) c hc)
      (Finset.mem_range.2 hc0)
    have s4 := Finset.single_le_sum (f := fun p =>
        modelPower idx cnt ant1 ant2 m flagged model weight t0 p nu0 c0 * δ t0 p nu0 c0 ^ 2)
      (fun p hp => hnn t0 ht0 nu0 hnu0 c0 hc0 p (Finset.mem_range.1 hp))
      (Finset.mem_range.2 hp0)
    have s5 := mul_le_mul_of_nonneg_right (hP t0 ht0 p0 hp0 nu0 hnu0 c0 hc0) (sq_nonneg (δ t0 p0 nu0 c0))
    exact s5.trans (s4.trans (s3.trans (s2.trans s1)))
  rw [sq_abs]
  unfold totalMisfit at h1 ⊢
  linarith

/-- C173 (partial, as above). However many iterations are allowed, at most `1 + F / (2 P tol²)` are
performed, where `F` is the misfit of the initial gains and `P` the smallest model power of an antenna. -/
theorem C173_iterations_partial (hone : OneDirection e idx cnt ant1 ant2 m jones vis flagged model weight)
    (P : ℝ) (hP0 : 0 < P)
    (hP : ∀ t < e.ntim, ∀ p < e.nant, ∀ nu < e.nchan, ∀ c < e.ncorr,
      P ≤ modelPower idx cnt ant1 ant2 m flagged model weight t p nu c) (htol : 0 < tol)
    (maxiter : Nat) (g : Arr5 ℂ) (jhj : Arr5 ℝ) (jhr : Arr5 ℂ) (k : Nat)
    (h : gaussNewton 5 3 e idx cnt ant1 ant2 jones vis flagged model weight tol maxiter = .ok (g, jhj, jhr, k)) :
    (k : ℝ) ≤ 1 + totalMisfit e idx cnt ant1 ant2 m vis flagged model weight jones / (2 * P * tol ^ 2) := by
  obtain ⟨jhj', hj1, hj2⟩ := jhj_power hone
  have hk : 0 < k := by
    rcases Nat.eq_zero_or_pos k with rfl | hk
    · have := (gnWhile_spec (fun j g jhr eps hs => gnStep_unit hs) _ _ _ _ _ _ _ _ (gaussNewton_run hj1 h)).2.2.1 rfl
      cases this.2
    · exact hk
  have := gnWhile_count (fun j => ∀ t p nu s c, ‖j t p nu s c‖ = 1)
    (totalMisfit e idx cnt ant1 ant2 m vis flagged model weight) (2 * P) (by positivity) htol.le
    (fun j g jhr eps hu hs => ⟨gnStep_unit hs, gnStep_total hone P hP jhj' j g jhr eps hu hj2 hs⟩)
    maxiter 1 0 jones hone.unit none g (some jhr) k (gaussNewton_run hj1 h) hk
  have hg : 0 ≤ totalMisfit e idx cnt ant1 ant2 m vis flagged model weight g :=
    Finset.sum_nonneg fun _ _ => Finset.sum_nonneg fun _ _ => Finset.sum_nonneg fun _ _ =>
      misfit_nonneg hone.weights _ _ _ _
  have hpos : 0 < 2 * P * tol ^ 2 := by positivity
  rw [← sub_le_iff_le_add', le_div_iff₀ hpos]
  push_cast at this
  linarith

/-- C173 (partial, as above). Calibration comes to rest: from some number of allowed iterations on, the
result is the same. -/
theorem C173_rest_partial (hone : OneDirection e idx cnt ant1 ant2 m jones vis flagged model weight)
    (hne : 0 < e.nant ∧ 0 < e.nchan ∧ 0 < e.ncorr) (htol : 0 < tol) (htol1 : tol < 1) :
    ∃ n g jhj jhr k, ∀ maxiter, n ≤ maxiter →
      gaussNewton 5 3 e idx cnt ant1 ant2 jones vis flagged model weight tol maxiter = .ok (g, jhj, jhr, k) := by
  obtain ⟨jhj, hj1, hj2⟩ := jhj_power hone
  have hnt : 0 < e.ntim := by obtain ⟨t, ht, _⟩ := hone.first.1; omega
  -- a lower bound of the power
  obtain ⟨P, hP0, hP⟩ : ∃ P : ℝ, 0 < P ∧ ∀ t < e.ntim, ∀ p < e.nant, ∀ nu < e.nchan, ∀ c < e.ncorr,
      P ≤ modelPower idx cnt ant1 ant2 m flagged model weight t p nu c := by
    let S := (Finset.range e.ntim) ×ˢ (Finset.range e.nant) ×ˢ (Finset.range e.nchan) ×ˢ (Finset.range e.ncorr)
    have hS : S.Nonempty := ⟨(0, 0, 0, 0), by
      simp only [S, Finset.mem_product, Finset.mem_range]; exact ⟨hnt, hne.1, hne.2.1, hne.2.2⟩⟩
    obtain ⟨x, hx, hmin⟩ := S.exists_min_image
      (fun x => modelPower idx cnt ant1 ant2 m flagged model weight x.1 x.2.1 x.2.2.1 x.2.2.2) hS
    simp only [S, Finset.mem_product, Finset.mem_range] at hx
    refine ⟨_, hone.power _ hx.1 _ hx.2.1 _ hx.2.2.1 _ hx.2.2.2, fun t ht p hp nu hnu c hc => ?_⟩
    exact hmin (t, p, nu, c) (by simp only [S, Finset.mem_product, Finset.mem_range]; exact ⟨ht, hp, hnu, hc⟩)
  -- iterations succeed
  have hstep : ∀ j, ∃ x, gnStep e idx cnt ant1 ant2 (fun r nu c => vis r nu c * (Real.sqrt (weight r nu c) : ℂ))
      flagged (fun r nu s c => model r nu s c * (Real.sqrt (weight r nu c) : ℂ)) jhj j = .ok x := by
    intro j
    obtain ⟨res, v, hres, -, -⟩ := C23_residual_diag_diag (K := ℂ) ant1 ant2 e.nchan e.ndir j
      (fun r nu c => vis r nu c * (Real.sqrt (weight r nu c) : ℂ)) flagged
      (fun r nu s c => model r nu s c * (Real.sqrt (weight r nu c) : ℂ)) hone.first hone.bins
    obtain ⟨_, jhr, _, hjhr, _⟩ := C27_entries (residual := res) (cnt := cnt) (ant1 := ant1)
      (ant2 := ant2) (nchan := e.nchan) (ndir := e.ndir) (jones := j)
      (model := fun r nu s c => model r nu s c * (Real.sqrt (weight r nu c) : ℂ)) (flagged := flagged) m hone.first
    unfold gnStep
    simp only
    rw [hres]
    simp only
    rw [hjhr]
    simp only
    cases hl : elems e (fun t p nu s c => |(j t p nu s c).arg +
        0.5 * (jhr t p nu s c / (jhj t p nu s c : ℂ)).re - (j t p nu s c).arg|) with
    | nil =>
      exfalso
      have hmem : ∀ (M : Type) (a : Arr5 M), a 0 0 0 0 0 ∈ elems e a := by
        intro M a
        simp only [elems, List.mem_flatMap, List.mem_map, List.mem_range]
        exact ⟨0, hnt, 0, hne.1, 0, hne.2.1, 0, by rw [hone.dirs]; omega, 0, hne.2.2, rfl⟩
      have := hmem ℝ (fun t p nu s c => |(j t p nu s c).arg +
        0.5 * (jhr t p nu s c / (jhj t p nu s c : ℂ)).re - (j t p nu s c).arg|)
      rw [hl] at this
      cases this
    | cons x xs => exact ⟨_, rfl⟩
  have hrun : ∀ maxiter, 1 ≤ maxiter → ∃ g jhr k,
      gaussNewton 5 3 e idx cnt ant1 ant2 jones vis flagged model weight tol maxiter = .ok (g, jhj, jhr, k) := by
    intro maxiter hmax
    obtain ⟨⟨g, r, k⟩, hx⟩ := gnWhile_ok hstep (tol := tol) maxiter 1 0 jones none
    have hr : r.isSome := by
      obtain ⟨n, rfl⟩ : ∃ n, maxiter = n + 1 := ⟨maxiter - 1, by omega⟩
      have hsp := gnWhile_spec (fun j g jhr eps hs => gnStep_unit hs) _ _ _ _ _ _ _ _ hx
      refine (hsp.2.2.2 ?_).2
      rw [gnWhile, if_pos htol1] at hx
      obtain ⟨⟨g1, jhr1, eps1⟩, hs⟩ := hstep jones
      rw [hs] at hx
      have := (gnWhile_spec (fun j g jhr eps hs => gnStep_unit hs) _ _ _ _ _ _ _ _ hx).1
      omega
    obtain ⟨jhr, rfl⟩ := Option.isSome_iff_exists.1 hr
    refine ⟨g, jhr, k, ?_⟩
    unfold gaussNewton
    simp only [checkType]
    simp only [if_true, ne_eq, not_true_eq_false, if_false]
    rw [hj1]
    simp only
    rw [hx]
  obtain ⟨N, hN⟩ := exists_nat_gt (1 + totalMisfit e idx cnt ant1 ant2 m vis flagged model weight jones /
    (2 * P * tol ^ 2))
  obtain ⟨g, jhr, k, hg⟩ := hrun (N + 1) (by omega)
  have hk : k < N := by
    have := C173_iterations_partial hone P hP0 hP htol (N + 1) g jhj jhr k hg
    exact_mod_cast this.trans_lt hN
  refine ⟨N + 1, g, jhj, jhr, k, fun maxiter hmax => ?_⟩
  have hst := gnWhile_stable (N + 1) maxiter hmax 1 0 jones none g (some jhr) k (gaussNewton_run hj1 hg) (by omega)
  unfold gaussNewton
  simp only [checkType]
  simp only [if_true, ne_eq, not_true_eq_false, if_false]
  rw [hj1]
  simp only
  rw [hst]

end

/-- One iteration for one baseline, unit gains, unit weight and any number of directions: the phases of the two
antennas move by opposite amounts. -/
theorem one_iteration (D : Nat) (hD : 0 < D) (μ : Nat → ℂ) (_hμ : ∀ s < D, μ s ≠ 0) (d : ℂ) :
    ∃ g jhj jhr, gaussNewton 5 3 ⟨1, 2, 1, D, 1⟩ (fun _ => 0) (fun _ => 1) (fun _ => 0) (fun _ => 1)
        (fun _ _ _ _ _ => 1) (fun _ _ _ => d) (fun _ _ => false) (fun _ _ s _ => μ s) (fun _ _ _ => 1)
        (1 / 1000) 1 = .ok (g, jhj, jhr, 1) ∧
      misfit D (fun _ => 0) (fun _ => 1) (fun _ => 0) (fun _ => 1) 0 (fun _ _ _ => d) (fun _ _ => false)
        (fun _ _ s _ => μ s) (fun _ _ _ => 1) 0 0 0 g =
          ‖d - ∑ s ∈ Finset.range D, μ s * exp (I * (((starRingEnd ℂ) (μ s) *
            (d - ∑ s ∈ Finset.range D, μ s)).im / normSq (μ s) : ℝ))‖ ^ 2 := by
  have hm : IsMin 1 (fun _ => 0) 0 := ⟨⟨0, by omega, rfl⟩, fun _ _ => le_rfl⟩
  have hd : Disjoint' 1 (fun _ => 0) (fun _ => 1) := by
    intro t ht t' ht' _ _ _; omega
  have hmod : (fun (_ _ s _ : Nat) => μ s * ((Real.sqrt 1 : ℝ) : ℂ)) = fun _ _ s _ => μ s := by
    funext _ _ s _; rw [Real.sqrt_one, ofReal_one, mul_one]
  have hvis : (fun (_ _ _ : Nat) => d * ((Real.sqrt 1 : ℝ) : ℂ)) = fun _ _ _ => d := by
    funext _ _ _; rw [Real.sqrt_one, ofReal_one, mul_one]
  obtain ⟨res, v, hres, hv, hrel⟩ := C23_residual_diag_diag (K := ℂ) (fun _ => 0) (fun _ => 1) 1 D
    (fun _ _ _ _ _ => 1) (fun _ _ _ => d) (fun _ _ => false) (fun _ _ s _ => μ s) hm hd
  have hbin : InBin (fun _ => 0) (fun _ => 1) 0 (0 + 0) := ⟨le_rfl, by show 0 + 0 < 0 + 1; omega⟩
  have hr0 : res 0 0 0 = d - ∑ s ∈ Finset.range D, μ s := by
    rw [(hrel 0 (by omega) 0 hbin 0 (by omega) 0).2 rfl]
    have hv' := hv
    unfold corruptVis at hv'
    rw [shiftIdx_ok hm] at hv'
    cases hv'
    rw [binLoop_bin (disjoint_shift hm hd) (by omega) ((inBin_shift hm (by omega)).2 hbin) (by omega),
      jonesMulDD_eq, zero_add]
    simp
  obtain ⟨jhj, jhr, hjhj, hjhr, hent⟩ := C27_entries (residual := res) (cnt := fun _ => 1) (ant1 := fun _ => 0)
    (ant2 := fun _ => 1) (nchan := 1) (ndir := D) (jones := fun _ _ _ _ _ => 1) (model := fun _ _ s _ => μ s)
    (flagged := fun _ _ => false) 0 hm
  obtain ⟨eps, heps⟩ : ∃ eps, npMax (elems ⟨1, 2, 1, D, 1⟩ fun t p nu s c => |(1 : ℂ).arg +
      0.5 * (jhr t p nu s c / (jhj t p nu s c : ℂ)).re - (1 : ℂ).arg|) = .ok eps := by
    cases hl : elems ⟨1, 2, 1, D, 1⟩ (fun t p nu s c => |(1 : ℂ).arg +
      0.5 * (jhr t p nu s c / (jhj t p nu s c : ℂ)).re - (1 : ℂ).arg|) with
    | nil =>
      exfalso
      have hmem : ∀ (M : Type) (a : Arr5 M), a 0 0 0 0 0 ∈ elems ⟨1, 2, 1, D, 1⟩ a := by
        intro M a
        simp only [elems, List.mem_flatMap, List.mem_map, List.mem_range]
        exact ⟨0, by omega, 0, by omega, 0, by omega, 0, hD, 0, by omega, rfl⟩
      have := hmem ℝ (fun t p nu s c => |(1 : ℂ).arg +
        0.5 * (jhr t p nu s c / (jhj t p nu s c : ℂ)).re - (1 : ℂ).arg|)
      rw [hl] at this
      cases this
    | cons x xs => exact ⟨_, rfl⟩
  refine ⟨fun t p nu s c => exp (I * (((1 : ℂ).arg + 0.5 * (jhr t p nu s c / (jhj t p nu s c : ℂ)).re : ℝ) : ℂ)),
    jhj, jhr, ?_, ?_⟩
  · unfold gaussNewton
    simp only [checkType]
    simp only [if_true, ne_eq, not_true_eq_false, if_false]
    rw [hmod, hvis, hjhj]
    simp only [gnWhile]
    rw [if_pos (by norm_num)]
    unfold gnStep
    simp only
    rw [hres]
    simp only
    rw [hjhr]
    simp only
    rw [heps]
  · have hval : ∀ s < D,
        (jhr 0 0 0 s 0 / (jhj 0 0 0 s 0 : ℂ)).re = ((starRingEnd ℂ) (μ s) * (d - ∑ s ∈ Finset.range D, μ s)).im /
          normSq (μ s) ∧
        (jhr 0 1 0 s 0 / (jhj 0 1 0 s 0 : ℂ)).re = -(((starRingEnd ℂ) (μ s) *
          (d - ∑ s ∈ Finset.range D, μ s)).im / normSq (μ s)) := by
      intro s hs
      obtain ⟨a1, a2⟩ := hent 0 (by omega) 0 0 (by omega) s hs 0
      obtain ⟨b1, b2⟩ := hent 0 (by omega) 1 0 (by omega) s hs 0
      have hb : binRow (fun _ => 0) 0 0 0 = 0 := rfl
      rw [Finset.sum_range_one, hb, hr0] at a2 b2
      rw [Finset.sum_range_one] at a1 b1
      generalize d - ∑ s ∈ Finset.range D, μ s = r at a2 b2 ⊢
      have a1' : jhj 0 0 0 s 0 = normSq (μ s) := by rw [a1]; simp
      have b1' : jhj 0 1 0 s 0 = normSq (μ s) := by rw [b1]; simp
      have a2' : (jhr 0 0 0 s 0).re = ((starRingEnd ℂ) (μ s) * r).im := by rw [a2]; simp; ring
      have b2' : (jhr 0 1 0 s 0).re = -((starRingEnd ℂ) (μ s) * r).im := by rw [b2]; simp; ring
      rw [div_ofReal_re, div_ofReal_re, a1', a2', b1', b2', neg_div]
      exact ⟨rfl, rfl⟩
    unfold misfit
    rw [Finset.sum_range_one, if_neg (by simp), one_mul]
    congr 3
    refine Finset.sum_congr rfl fun s hs => ?_
    obtain ⟨h1, h2⟩ := hval s (Finset.mem_range.1 hs)
    show exp (I * (((1 : ℂ).arg + 0.5 * (jhr 0 0 0 s 0 / (jhj 0 0 0 s 0 : ℂ)).re : ℝ) : ℂ)) * μ s *
      (starRingEnd ℂ) (exp (I * (((1 : ℂ).arg + 0.5 * (jhr 0 1 0 s 0 / (jhj 0 1 0 s 0 : ℂ)).re : ℝ) : ℂ))) = _
    rw [h1, h2, arg_one, conj_exp_I]
    generalize ((starRingEnd ℂ) (μ s) * (d - ∑ s ∈ Finset.range D, μ s)).im / normSq (μ s) = y
    rw [mul_assoc, mul_comm, mul_assoc, ← exp_add]
    congr 2
    push_cast
    ring

/-- C173 is violated by a visibility brighter than its model: one baseline, model 1 and data `1 + πi`. One
iteration from unit gains turns the prediction by `π`, and the misfit grows from `π²` to `4 + π²`. -/
theorem C173_bright_violated :
    ∃ g jhj jhr, gaussNewton 5 3 ⟨1, 2, 1, 1, 1⟩ (fun _ => 0) (fun _ => 1) (fun _ => 0) (fun _ => 1)
        (fun _ _ _ _ _ => 1) (fun _ _ _ => ⟨1, Real.pi⟩) (fun _ _ => false) (fun _ _ _ _ => 1) (fun _ _ _ => 1)
        (1 / 1000) 1 = .ok (g, jhj, jhr, 1) ∧
      misfit 1 (fun _ => 0) (fun _ => 1) (fun _ => 0) (fun _ => 1) 0 (fun _ _ _ => ⟨1, Real.pi⟩)
        (fun _ _ => false) (fun _ _ _ _ => 1) (fun _ _ _ => 1) 0 0 0 (fun _ _ _ _ _ => 1) = Real.pi ^ 2 ∧
      misfit 1 (fun _ => 0) (fun _ => 1) (fun _ => 0) (fun _ => 1) 0 (fun _ _ _ => ⟨1, Real.pi⟩)
        (fun _ _ => false) (fun _ _ _ _ => 1) (fun _ _ _ => 1) 0 0 0 g = 4 + Real.pi ^ 2 := by
  obtain ⟨g, jhj, jhr, h, hg⟩ := one_iteration 1 (by omega) (fun _ => 1) (fun _ _ => one_ne_zero) ⟨1, Real.pi⟩
  refine ⟨g, jhj, jhr, h, ?_, ?_⟩
  · unfold misfit
    rw [Finset.sum_range_one, if_neg (by simp), Finset.sum_range_one, one_mul, ← normSq_eq_norm_sq, normSq_apply]
    simp
    ring
  · rw [hg, Finset.sum_range_one, Finset.sum_range_one]
    have : ((starRingEnd ℂ) (1 : ℂ) * ((⟨1, Real.pi⟩ : ℂ) - 1)).im / normSq 1 = Real.pi := by simp
    rw [this, mul_comm I, exp_pi_mul_I, ← normSq_eq_norm_sq, normSq_apply]
    simp
    ring

/-- C173 is violated by several directions: one baseline, four directions with models 1, 1, i, i and data 0, so
no visibility is brighter than any model. One iteration from unit gains makes the misfit larger than 8, its value
for the initial gains. -/
theorem C173_directions_violated :
    ∃ g jhj jhr, gaussNewton 5 3 ⟨1, 2, 1, 4, 1⟩ (fun _ => 0) (fun _ => 1) (fun _ => 0) (fun _ => 1)
        (fun _ _ _ _ _ => 1) (fun _ _ _ => 0) (fun _ _ => false) (fun _ _ s _ => if s < 2 then 1 else I)
        (fun _ _ _ => 1) (1 / 1000) 1 = .ok (g, jhj, jhr, 1) ∧
      misfit 4 (fun _ => 0) (fun _ => 1) (fun _ => 0) (fun _ => 1) 0 (fun _ _ _ => 0)
        (fun _ _ => false) (fun _ _ s _ => if s < 2 then 1 else I) (fun _ _ _ => 1) 0 0 0 (fun _ _ _ _ _ => 1) = 8 ∧
      8 < misfit 4 (fun _ => 0) (fun _ => 1) (fun _ => 0) (fun _ => 1) 0 (fun _ _ _ => 0)
        (fun _ _ => false) (fun _ _ s _ => if s < 2 then 1 else I) (fun _ _ _ => 1) 0 0 0 g := by
  obtain ⟨g, jhj, jhr, h, hg⟩ := one_iteration 4 (by omega) (fun s => if s < 2 then 1 else I)
    (fun s _ => by show (if s < 2 then (1 : ℂ) else I) ≠ 0; split; exacts [one_ne_zero, I_ne_zero]) 0
  have hsum : ∑ s ∈ Finset.range 4, (if s < 2 then (1 : ℂ) else I) = 2 + 2 * I := by
    simp only [Finset.sum_range_succ, Finset.sum_range_zero]
    norm_num
    ring
  refine ⟨g, jhj, jhr, h, ?_, ?_⟩
  · unfold misfit
    rw [Finset.sum_range_one, if_neg (by simp), one_mul]
    simp only [map_one, one_mul, mul_one]
    rw [hsum, ← normSq_eq_norm_sq, normSq_apply]
    norm_num
  · rw [hg, hsum]
    have e1 : ((starRingEnd ℂ) (1 : ℂ) * (0 - (2 + 2 * I))).im / normSq 1 = -2 := by simp
    have e2 : ((starRingEnd ℂ) I * (0 - (2 + 2 * I))).im / normSq I = 2 := by simp
    simp only [Finset.sum_range_succ, Finset.sum_range_zero]
    rw [if_pos (by omega), if_pos (by omega), if_neg (by omega), if_neg (by omega), e1, e2, ← normSq_eq_norm_sq]
    have x : ∀ y : ℝ, exp (I * (y : ℂ)) = ⟨Real.cos y, Real.sin y⟩ := by
      intro y
      rw [mul_comm]
      exact Complex.ext (exp_ofReal_mul_I_re y) (exp_ofReal_mul_I_im y)
    rw [x, x, Real.cos_neg, Real.sin_neg, normSq_apply]
    simp
    have h4 : Real.sin 4 < 0 := by
      have := Real.sin_pos_of_pos_of_lt_pi (x := 4 - Real.pi) (by linarith [Real.pi_lt_d2])
        (by linarith [Real.pi_gt_three])
      rw [Real.sin_sub_pi] at this
      linarith
    have h22 : Real.sin 4 = 2 * Real.sin 2 * Real.cos 2 := by
      rw [← Real.sin_two_mul]; norm_num
    have hsc := Real.sin_sq_add_cos_sq 2
    nlinarith

/-- Three antennas with two rows, data that are the model with other phases: the hypotheses of the partial
theorems are met. -/
theorem descent_demo : OneDirection ⟨1, 3, 1, 1, 1⟩ (fun _ => 0) (fun _ => 2) (fun r => if r = 0 then 0 else 1)
    (fun r => if r = 0 then 1 else 2) 0 (fun _ _ _ _ _ => 1) (fun r _ _ => if r = 0 then I else -1)
    (fun _ _ => false) (fun _ _ _ _ => 1) (fun _ _ _ => 2) where
  dirs := rfl
  first := ⟨⟨0, by show 0 < 1; omega, rfl⟩, fun _ _ => le_rfl⟩
  bins := by
    intro t ht t' ht' _ _ _
    have h1 : t < 1 := ht
    have h2 : t' < 1 := ht'
    omega
  ants := by
    intro row
    show (if row = 0 then 0 else 1) < 3 ∧ (if row = 0 then 1 else 2) < 3
    split <;> omega
  weights := fun _ _ _ => by norm_num
  unit := fun _ _ _ _ _ => norm_one
  bright := by
    intro row _ _ _
    show ‖(if row = 0 then I else -1 : ℂ)‖ ≤ ‖(1 : ℂ)‖
    split <;> simp
  power := by
    intro t _ p hp nu _ c _
    have hp3 : p < 3 := hp
    unfold modelPower
    rw [Finset.sum_range_succ, Finset.sum_range_one]
    obtain rfl | rfl | rfl : p = 0 ∨ p = 1 ∨ p = 2 := by omega
    all_goals norm_num

/-- A call with these data comes to rest, at gains that fit at least as well as the initial ones. -/
example : ∃ n g jhj jhr k, ∀ maxiter, n ≤ maxiter →
    gaussNewton 5 3 ⟨1, 3, 1, 1, 1⟩ (fun _ => 0) (fun _ => 2) (fun r => if r = 0 then 0 else 1)
      (fun r => if r = 0 then 1 else 2) (fun _ _ _ _ _ => 1) (fun r _ _ => if r = 0 then I else -1)
      (fun _ _ => false) (fun _ _ _ _ => 1) (fun _ _ _ => 2) (1 / 1000) maxiter = .ok (g, jhj, jhr, k) :=
  C173_rest_partial descent_demo ⟨by decide, by decide, by decide⟩ (by norm_num) (by norm_num)

end Verif.Calibration
