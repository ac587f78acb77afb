/-
Properties C27-C30: phase-only calibration and compute_and_corrupt_vis.
-/
import Verif.Calibration.LemmasPhase
import Verif.Calibration.Props

set_option autoImplicit false

noncomputable section

namespace Verif.Calibration

open Complex

section phase
variable {ntim : Nat} {idx cnt ant1 ant2 : Nat → Nat} {nchan ndir : Nat} {jones : Arr5 ℂ}
  {residual : Nat → Nat → Nat → ℂ} {model : Nat → Nat → Nat → Nat → ℂ} {flagged : Nat → Nat → Bool}

/-! ### C27 -/

/-- C27. The combined kernel returns exactly what the two separate kernels return (or the same
error); other modes are refused. -/
theorem C27_both_eq_separate :
    computeJhjAndJhr 5 3 ntim idx cnt ant1 ant2 nchan ndir jones residual model flagged =
      (match computeJhj ntim idx cnt ant1 ant2 nchan ndir jones model flagged,
          computeJhr ntim idx cnt ant1 ant2 nchan ndir jones residual model flagged with
        | .ok jhj, .ok jhr => .ok (jhj, jhr)
        | .error e, _ => .error e
        | _, .error e => .error e) ∧
    (∀ jn rn, (jn = 5 ∨ jn = 6) → rn = 4 →
      computeJhjAndJhr jn rn ntim idx cnt ant1 ant2 nchan ndir jones residual model flagged =
        .error .notImplementedError) := by
  constructor
  · unfold computeJhjAndJhr computeJhj computeJhr
    rcases Nat.eq_zero_or_pos ntim with rfl | hn
    · rfl
    · obtain ⟨m, hm⟩ := exists_min idx hn
      rw [shiftIdx_ok hm]
      simp only [checkType]
      simp only [if_true, ne_eq, not_true_eq_false, if_false, Except.ok.injEq]
      exact nest_pair (fun t row nu s st => bodyBoth_eq t row nu s st) _ _
  · rintro jn rn (rfl | rfl) rfl <;> rfl

/-- The rows of time bin `t` in the numbering of the arrays passed in, `m` being the smallest time bin
index. -/
def binRow (idx : Nat → Nat) (m t k : Nat) : Nat := idx t - m + k

/-- C27/C28. Entries of `jhj` and `jhr` as sums over the unflagged rows of the time bin. -/
theorem C27_entries (m : Nat) (hm : IsMin ntim idx m) :
    ∃ jhj jhr, computeJhj ntim idx cnt ant1 ant2 nchan ndir jones model flagged = .ok jhj ∧
      computeJhr ntim idx cnt ant1 ant2 nchan ndir jones residual model flagged = .ok jhr ∧
      ∀ t < ntim, ∀ a, ∀ nu < nchan, ∀ s < ndir, ∀ c,
        jhj t a nu s c = (∑ k ∈ Finset.range (cnt t), if flagged (binRow idx m t k) nu then 0 else
          ((if ant1 (binRow idx m t k) = a then 1 else 0) + (if ant2 (binRow idx m t k) = a then 1 else 0)) *
            normSq (jones t (ant1 (binRow idx m t k)) nu s c * model (binRow idx m t k) nu s c *
              (starRingEnd ℂ) (jones t (ant2 (binRow idx m t k)) nu s c))) ∧
        jhr t a nu s c = ∑ k ∈ Finset.range (cnt t), if flagged (binRow idx m t k) nu then 0 else
          (starRingEnd ℂ) (((if ant1 (binRow idx m t k) = a then I else 0) -
              (if ant2 (binRow idx m t k) = a then I else 0)) *
            (jones t (ant1 (binRow idx m t k)) nu s c * model (binRow idx m t k) nu s c *
              (starRingEnd ℂ) (jones t (ant2 (binRow idx m t k)) nu s c))) *
            residual (binRow idx m t k) nu c := by
  refine ⟨_, _, by unfold computeJhj; rw [shiftIdx_ok hm], by unfold computeJhr; rw [shiftIdx_ok hm], ?_⟩
  intro t ht a nu hnu s hs c
  constructor
  · rw [nest_sum (fun j : Arr5 ℝ => j t a nu s c) (gJhj ant1 ant2 jones model t a nu s c)
      (fun t' _ row nu' _ s' _ st => bodyJhj_apply t' row nu' s' st t a nu s c), zero_add]
    unfold gJhj
    exact nest_collapse (fun row => ((if ant1 row = a then 1 else 0) + (if ant2 row = a then 1 else 0)) *
      normSq (pred ant1 ant2 jones model t row nu s c)) ht hnu hs
  · rw [nest_sum (fun j : Arr5 ℂ => j t a nu s c) (gJhr ant1 ant2 jones residual model t a nu s c)
      (fun t' _ row nu' _ s' _ st => bodyJhr_apply t' row nu' s' st t a nu s c), zero_add]
    unfold gJhr
    exact nest_collapse (fun row => (starRingEnd ℂ) (((if ant1 row = a then I else 0) -
        (if ant2 row = a then I else 0)) * pred ant1 ant2 jones model t row nu s c) * residual row nu c)
      ht hnu hs

/-- C27. `jhj` is non-negative. -/
theorem C27_jhj_nonneg (jhj : Arr5 ℝ)
    (h : computeJhj ntim idx cnt ant1 ant2 nchan ndir jones model flagged = .ok jhj)
    (t a nu s c : Nat) (ht : t < ntim) (hnu : nu < nchan) (hs : s < ndir) : 0 ≤ jhj t a nu s c := by
  obtain ⟨m, hm⟩ := exists_min idx (show 0 < ntim by omega)
  obtain ⟨jhj', _, h1, _, h2⟩ := C27_entries (residual := fun _ _ _ => 0) (cnt := cnt) (ant1 := ant1)
    (ant2 := ant2) (nchan := nchan) (ndir := ndir) (jones := jones) (model := model) (flagged := flagged) m hm
  rw [h] at h1
  cases h1
  rw [(h2 t ht a nu hnu s hs c).1]
  refine Finset.sum_nonneg fun k _ => ?_
  split
  · exact le_rfl
  · refine mul_nonneg (add_nonneg ?_ ?_) (normSq_nonneg _) <;> split <;> norm_num

/-- C27. `jhr` vanishes when the residual vanishes on the unflagged samples. -/
theorem C27_jhr_zero (m : Nat) (hm : IsMin ntim idx m) (jhr : Arr5 ℂ)
    (h : computeJhr ntim idx cnt ant1 ant2 nchan ndir jones residual model flagged = .ok jhr)
    (hres : ∀ t < ntim, ∀ row, InBin idx cnt t (m + row) → ∀ nu < nchan, flagged row nu = false →
      ∀ c, residual row nu c = 0)
    (t a nu s c : Nat) (ht : t < ntim) (hnu : nu < nchan) (hs : s < ndir) : jhr t a nu s c = 0 := by
  obtain ⟨_, jhr', _, h1, h2⟩ := C27_entries (residual := residual) (cnt := cnt) (ant1 := ant1)
    (ant2 := ant2) (nchan := nchan) (ndir := ndir) (jones := jones) (model := model) (flagged := flagged) m hm
  rw [h] at h1
  cases h1
  rw [(h2 t ht a nu hnu s hs c).2]
  refine Finset.sum_eq_zero fun k hk => ?_
  split
  · rfl
  · rename_i hf
    rw [hres t ht (binRow idx m t k) ?_ nu hnu (by simpa using hf) c, mul_zero]
    have := hm.2 t ht
    have := Finset.mem_range.1 hk
    unfold InBin binRow
    omega

/-! ### C28 -/

/-- The predicted visibility of row `row` as a function of the phase `x` of antenna `a`, direction `s`,
all other phases being those of `φ`: `sum_s' exp(i φ_p) M exp(-i φ_q)`. -/
def predictPhase (ant1 ant2 : Nat → Nat) (ndir : Nat) (φ : Arr5 ℝ) (model : Nat → Nat → Nat → Nat → ℂ)
    (t a nu s c row : Nat) (x : ℝ) : ℂ :=
  let ψ : Nat → Nat → ℝ := fun a' s' => if a' = a ∧ s' = s then x else φ t a' nu s' c
  ∑ s' ∈ Finset.range ndir,
    exp (I * ψ (ant1 row) s') * model row nu s' c * exp (-(I * ψ (ant2 row) s'))

theorem exp_deriv (x : ℝ) : HasDerivAt (fun x : ℝ => exp (I * x)) (I * exp (I * x)) x := by
  have h1 : HasDerivAt (fun y : ℝ => (y : ℂ)) 1 x := ofRealCLM.hasDerivAt
  have h2 := (h1.const_mul I).cexp
  simp only [mul_one] at h2
  rwa [mul_comm (I : ℂ) (exp _)]

theorem exp_deriv_neg (x : ℝ) : HasDerivAt (fun x : ℝ => exp (-(I * x))) (-I * exp (-(I * x))) x := by
  have h1 : HasDerivAt (fun y : ℝ => (y : ℂ)) 1 x := ofRealCLM.hasDerivAt
  have h2 := (h1.const_mul I).neg.cexp
  simp only [mul_one] at h2
  rwa [mul_comm (-I : ℂ) (exp _)]

/-- The derivative of the predicted visibility of a row. -/
theorem predictPhase_deriv (φ : Arr5 ℝ) (t a nu s c row : Nat) (hs : s < ndir) :
    HasDerivAt (predictPhase ant1 ant2 ndir φ model t a nu s c row)
      (((if ant1 row = a then I else 0) - (if ant2 row = a then I else 0)) *
        (exp (I * φ t (ant1 row) nu s c) * model row nu s c * exp (-(I * φ t (ant2 row) nu s c))))
      (φ t a nu s c) := by
  unfold predictPhase
  have hsum := HasDerivAt.fun_sum (u := Finset.range ndir) (x := φ t a nu s c)
    (A := fun s' (x : ℝ) => exp (I * ((if ant1 row = a ∧ s' = s then x else φ t (ant1 row) nu s' c : ℝ) : ℂ)) *
      model row nu s' c * exp (-(I * ((if ant2 row = a ∧ s' = s then x else φ t (ant2 row) nu s' c : ℝ) : ℂ))))
    (A' := fun s' => if s' = s then ((if ant1 row = a then I else 0) - (if ant2 row = a then I else 0)) *
        (exp (I * φ t (ant1 row) nu s c) * model row nu s c * exp (-(I * φ t (ant2 row) nu s c))) else 0)
    ?_
  · rw [Finset.sum_ite_eq' (Finset.range ndir) s, if_pos (Finset.mem_range.2 hs)] at hsum
    exact hsum
  · intro s' _
    by_cases hs' : s' = s
    · subst hs'
      rw [if_pos rfl]
      by_cases hp : ant1 row = a <;> by_cases hq : ant2 row = a
      · simp only [hp, hq, and_self, if_true, sub_self, zero_mul]
        have : (fun x : ℝ => exp (I * (x : ℂ)) * model row nu s' c * exp (-(I * (x : ℂ)))) =
            fun _ => model row nu s' c := by
          funext x
          rw [mul_comm (exp _) (model row nu s' c), mul_assoc, ← exp_add]
          simp
        rw [this]
        exact hasDerivAt_const _ _
      · simp only [hp, hq, true_and, false_and, if_true, if_false, sub_zero]
        have h := ((exp_deriv (φ t a nu s' c)).mul_const (model row nu s' c)).mul_const
          (exp (-(I * φ t (ant2 row) nu s' c)))
        rw [← mul_assoc, ← mul_assoc]
        exact h
      · simp only [hp, hq, true_and, false_and, if_true, if_false, zero_sub]
        have h := (exp_deriv_neg (φ t a nu s' c)).const_mul
          (exp (I * φ t (ant1 row) nu s' c) * model row nu s' c)
        rw [mul_left_comm] at h
        exact h
      · simp only [hp, hq, false_and, if_false, sub_zero, zero_mul]
        exact hasDerivAt_const _ _
    · simp only [hs', and_false, if_false]
      exact hasDerivAt_const _ _

theorem conj_exp_I (x : ℝ) : (starRingEnd ℂ) (exp (I * x)) = exp (-(I * x)) := by
  rw [← exp_conj]; simp

/-- C28 (partial). For gains `exp(i φ)`: `J row` is the derivative of the predicted visibility of the
row with respect to the phase of antenna `a` in direction `s`; `jhr` is `sum conj(J) r` over the
unflagged rows of the time bin and, for tables without autocorrelations, `jhj` is `sum |J|^2`.
Missing: `jhj` on tables with autocorrelations, for which it is false; see `C28_violated`. -/
theorem C28_normal_equations_partial (m : Nat) (hm : IsMin ntim idx m) (φ : Arr5 ℝ)
    (hφ : jones = fun t a nu s c => exp (I * φ t a nu s c)) :
    ∃ jhj jhr, computeJhj ntim idx cnt ant1 ant2 nchan ndir jones model flagged = .ok jhj ∧
      computeJhr ntim idx cnt ant1 ant2 nchan ndir jones residual model flagged = .ok jhr ∧
      ∀ t < ntim, ∀ a, ∀ nu < nchan, ∀ s < ndir, ∀ c, ∃ J : Nat → ℂ,
        (∀ row, HasDerivAt (predictPhase ant1 ant2 ndir φ model t a nu s c row) (J row)
          (φ t a nu s c)) ∧
        jhr t a nu s c = (∑ k ∈ Finset.range (cnt t), if flagged (binRow idx m t k) nu then 0 else
          (starRingEnd ℂ) (J (binRow idx m t k)) * residual (binRow idx m t k) nu c) ∧
        ((∀ row, ant1 row ≠ ant2 row) →
          jhj t a nu s c = ∑ k ∈ Finset.range (cnt t), if flagged (binRow idx m t k) nu then 0 else
            normSq (J (binRow idx m t k))) := by
  obtain ⟨jhj, jhr, h1, h2, h3⟩ := C27_entries (residual := residual) (cnt := cnt) (ant1 := ant1)
    (ant2 := ant2) (nchan := nchan) (ndir := ndir) (jones := jones) (model := model) (flagged := flagged) m hm
  refine ⟨jhj, jhr, h1, h2, ?_⟩
  intro t ht a nu hnu s hs c
  obtain ⟨e1, e2⟩ := h3 t ht a nu hnu s hs c
  refine ⟨_, fun row => predictPhase_deriv φ t a nu s c row hs, ?_, ?_⟩
  · rw [e2]
    refine Finset.sum_congr rfl fun k _ => ?_
    rw [hφ]
    simp only [conj_exp_I]
  · intro hne
    rw [e1]
    refine Finset.sum_congr rfl fun k _ => ?_
    split
    · rfl
    · rw [hφ]
      simp only [conj_exp_I]
      rw [normSq_mul]
      have := hne (binRow idx m t k)
      by_cases hp : ant1 (binRow idx m t k) = a <;> by_cases hq : ant2 (binRow idx m t k) = a
      · exact absurd (hp.trans hq.symm) this
      all_goals simp [hp, hq]

/-- C28 is violated by autocorrelations: one row with both antennas equal, unit gains and a unit model:
the predicted visibility does not depend on the phase (derivative 0), but `jhj` is 2. -/
theorem C28_violated : ∃ jhj,
    computeJhj 1 (fun _ => 0) (fun _ => 1) (fun _ => 0) (fun _ => 0) 1 1 (fun _ _ _ _ _ => exp (I * (0 : ℝ)))
      (fun _ _ _ _ => 1) (fun _ _ => false) = .ok jhj ∧ jhj 0 0 0 0 0 = 2 ∧
    HasDerivAt (predictPhase (fun _ => 0) (fun _ => 0) 1 (fun _ _ _ _ _ => 0) (fun _ _ _ _ => 1) 0 0 0 0 0 0)
      0 0 := by
  obtain ⟨jhj, _, h1, _, h3⟩ := C27_entries (ntim := 1) (idx := fun _ => 0) (residual := fun _ _ _ => 0)
    (cnt := fun _ => 1) (ant1 := fun _ => 0) (ant2 := fun _ => 0) (nchan := 1) (ndir := 1)
    (jones := fun _ _ _ _ _ => exp (I * (0 : ℝ))) (model := fun _ _ _ _ => 1)
    (flagged := fun _ _ => false) 0 ⟨⟨0, by omega, rfl⟩, fun _ _ => le_rfl⟩
  refine ⟨jhj, h1, ?_, ?_⟩
  · rw [(h3 0 (by omega) 0 0 (by omega) 0 (by omega) 0).1]
    simp
    norm_num
  · have := predictPhase_deriv (ant1 := fun _ => 0) (ant2 := fun _ => 0) (ndir := 1)
      (model := fun _ _ _ _ => 1) (fun _ _ _ _ _ => 0) 0 0 0 0 0 0 (by omega)
    simpa using this

/-- One cross-correlation row meets the hypotheses of the partial theorem. -/
example : IsMin 1 (fun _ => 3) 3 ∧ (∀ row : Nat, (fun _ => 0 : Nat → Nat) row ≠ (fun _ => 1) row) :=
  ⟨⟨⟨0, by omega, rfl⟩, fun _ _ => le_rfl⟩, by simp⟩

end phase

/-! ### C29 -/

section gn
variable {e : Ext5} {idx cnt ant1 ant2 : Nat → Nat} {jones : Arr5 ℂ} {vis : Nat → Nat → Nat → ℂ}
  {flagged : Nat → Nat → Bool} {model : Nat → Nat → Nat → Nat → ℂ} {weight : Nat → Nat → Nat → ℝ}
  {tol : ℝ}

theorem gnStep_unit {vis : Nat → Nat → Nat → ℂ} {model : Nat → Nat → Nat → Nat → ℂ} {jhj : Arr5 ℝ}
    {jones : Arr5 ℂ} {g jhr : Arr5 ℂ} {eps : ℝ}
    (h : gnStep e idx cnt ant1 ant2 vis flagged model jhj jones = .ok (g, jhr, eps)) (t p nu s c : Nat) :
    ‖g t p nu s c‖ = 1 := by
  unfold gnStep at h
  simp only at h
  split at h
  · cases h
  · cases h
  · split at h
    · cases h
    · split at h
      · cases h
      · cases h
        simp only
        rw [mul_comm]
        exact norm_exp_ofReal_mul_I _

theorem gnWhile_spec {step : Arr5 ℂ → Except PyErr (Arr5 ℂ × Arr5 ℂ × ℝ)}
    (hstep : ∀ j g jhr eps, step j = .ok (g, jhr, eps) → ∀ t p nu s c, ‖g t p nu s c‖ = 1)
    (fuel : Nat) (eps : ℝ) (k : Nat) (j : Arr5 ℂ) (jhr0 : Option (Arr5 ℂ)) (g : Arr5 ℂ)
    (jhr : Option (Arr5 ℂ)) (k' : Nat) (h : gnWhile step tol fuel eps k j jhr0 = .ok (g, jhr, k')) :
    k ≤ k' ∧ k' ≤ k + fuel ∧ (k' = k → g = j ∧ jhr = jhr0) ∧
      (k < k' → (∀ t p nu s c, ‖g t p nu s c‖ = 1) ∧ jhr.isSome) := by
  induction fuel generalizing eps k j jhr0 with
  | zero =>
    simp only [gnWhile] at h
    cases h
    exact ⟨le_rfl, le_rfl, fun _ => ⟨rfl, rfl⟩, fun h => absurd h (lt_irrefl _)⟩
  | succ n ih =>
    simp only [gnWhile] at h
    split at h
    · cases hs : step j with
      | error err => rw [hs] at h; cases h
      | ok r =>
        obtain ⟨g', jhr', eps'⟩ := r
        rw [hs] at h
        simp only at h
        obtain ⟨h1, h2, h3, h4⟩ := ih eps' (k + 1) g' (some jhr') h
        refine ⟨by omega, by omega, fun h => by omega, fun _ => ?_⟩
        rcases Nat.eq_or_lt_of_le h1 with heq | hlt
        · obtain ⟨rfl, rfl⟩ := h3 heq.symm
          exact ⟨hstep _ _ _ _ hs, rfl⟩
        · exact h4 hlt
    · cases h
      exact ⟨le_rfl, by omega, fun _ => ⟨rfl, rfl⟩, fun h => absurd h (lt_irrefl _)⟩

/-- C29. A call that returns has performed between 1 and `maxiter` iterations, and all returned gains
have modulus 1 (where the `jhj` entries are non-zero: division by zero gives nan in the code). -/
theorem C29_unit_gains (maxiter : Nat) (g : Arr5 ℂ) (jhj : Arr5 ℝ) (jhr : Arr5 ℂ) (k : Nat)
    (h : gaussNewton 5 3 e idx cnt ant1 ant2 jones vis flagged model weight tol maxiter =
      .ok (g, jhj, jhr, k))
    (_hjhj : ∀ t < e.ntim, ∀ p < e.nant, ∀ nu < e.nchan, ∀ s < e.ndir, ∀ c < e.ncorr,
      jhj t p nu s c ≠ 0) :
    1 ≤ k ∧ k ≤ maxiter ∧ ∀ t p nu s c, ‖g t p nu s c‖ = 1 := by
  unfold gaussNewton at h
  simp only [checkType] at h
  simp only [if_true, ne_eq, not_true_eq_false, if_false] at h
  split at h
  · cases h
  · split at h
    · cases h
    · cases h
    · rename_i hw
      cases h
      have := gnWhile_spec (tol := tol) (fun j g jhr eps h => gnStep_unit h) _ _ _ _ _ _ _ _ hw
      obtain ⟨h1, h2, h3, h4⟩ := this
      have hk : 0 < k := by
        rcases Nat.eq_zero_or_pos k with h0 | h0
        · have := (h3 h0).2; cases this
        · exact h0
      exact ⟨hk, by omega, (h4 hk).1⟩

/-- C29. A call that performs no iteration (`maxiter = 0` or `tol >= 1`) fails. -/
theorem C29_no_iteration (hn : 0 < e.ntim) (maxiter : Nat) (h : maxiter = 0 ∨ 1 ≤ tol) :
    gaussNewton 5 3 e idx cnt ant1 ant2 jones vis flagged model weight tol maxiter =
      .error .unboundLocalError := by
  obtain ⟨m, hm⟩ := exists_min idx hn
  unfold gaussNewton
  simp only [checkType]
  simp only [if_true, ne_eq, not_true_eq_false, if_false, computeJhj, shiftIdx_ok hm]
  have : ∀ step, gnWhile step tol maxiter 1 0 jones none = .ok (jones, none, 0) := by
    intro step
    rcases h with rfl | h
    · rfl
    · cases maxiter with
      | zero => rfl
      | succ n => simp only [gnWhile]; rw [if_neg (not_lt.2 h)]
  rw [this]

/-- C29. Modes other than DIAG_DIAG are refused. -/
theorem C29_modes (maxiter : Nat) :
    gaussNewton 5 4 e idx cnt ant1 ant2 jones vis flagged model weight tol maxiter =
      .error .notImplementedError ∧
    gaussNewton 6 4 e idx cnt ant1 ant2 jones vis flagged model weight tol maxiter =
      .error .notImplementedError := ⟨rfl, rfl⟩

theorem foldl_max_zero (l : List ℝ) (h : ∀ x ∈ l, x = 0) : l.foldl max 0 = 0 := by
  induction l with
  | nil => rfl
  | cons x l ih =>
    rw [List.foldl_cons, h x (by simp), max_self]
    exact ih fun y hy => h y (by simp [hy])

/-- C29. Perfect gains are a fixed point: if the gains have modulus 1 and the data are the model
corrupted by them, one iteration is performed and the gains are returned unchanged. (`jhj` must have no
zero entry: division by it gives nan in the code.) -/
theorem C29_fixed_point (m : Nat) (hm : IsMin e.ntim idx m) (hd : Disjoint' e.ntim idx cnt)
    (maxiter : Nat) (hmax : 1 ≤ maxiter) (htol0 : 0 ≤ tol) (htol1 : tol < 1)
    (hne : 0 < e.ntim ∧ 0 < e.nant ∧ 0 < e.nchan ∧ 0 < e.ndir ∧ 0 < e.ncorr)
    (_hjhj : ∀ jhj, computeJhj e.ntim idx cnt ant1 ant2 e.nchan e.ndir jones
        (fun r nu s c => model r nu s c * (Real.sqrt (weight r nu c) : ℂ)) flagged = .ok jhj →
      ∀ t < e.ntim, ∀ p < e.nant, ∀ nu < e.nchan, ∀ s < e.ndir, ∀ c < e.ncorr, jhj t p nu s c ≠ 0)
    (hunit : ∀ t p nu s c, ‖jones t p nu s c‖ = 1)
    (hvis : ∀ t < e.ntim, ∀ row, InBin idx cnt t (m + row) → ∀ nu < e.nchan, ∀ c,
      vis row nu c = ∑ s ∈ Finset.range e.ndir, jones t (ant1 row) nu s c * model row nu s c *
        (starRingEnd ℂ) (jones t (ant2 row) nu s c)) :
    ∃ g jhj jhr, gaussNewton 5 3 e idx cnt ant1 ant2 jones vis flagged model weight tol maxiter =
        .ok (g, jhj, jhr, 1) ∧
      ∀ t < e.ntim, ∀ p, ∀ nu < e.nchan, ∀ s < e.ndir, ∀ c, g t p nu s c = jones t p nu s c := by
  -- whitened data
  let vis' : Nat → Nat → Nat → ℂ := fun r nu c => vis r nu c * Real.sqrt (weight r nu c)
  let model' : Nat → Nat → Nat → Nat → ℂ := fun r nu s c => model r nu s c * Real.sqrt (weight r nu c)
  obtain ⟨res, v, hres, hv, hrel⟩ := C23_residual_diag_diag (K := ℂ) ant1 ant2 e.nchan e.ndir jones vis'
    flagged model' hm hd
  -- the residual vanishes
  have hzero : ∀ t < e.ntim, ∀ row, InBin idx cnt t (m + row) → ∀ nu < e.nchan, flagged row nu = false →
      ∀ c, res row nu c = 0 := by
    intro t ht row hr nu hnu hf c
    rw [(hrel t ht row hr nu hnu c).2 hf]
    have : v row nu c = ∑ s ∈ Finset.range e.ndir, jones t (ant1 row) nu s c * model' row nu s c *
        (starRingEnd ℂ) (jones t (ant2 row) nu s c) := by
      have hv' := hv
      unfold corruptVis at hv'
      rw [shiftIdx_ok hm] at hv'
      cases hv'
      rw [binLoop_bin (disjoint_shift hm hd) ht ((inBin_shift hm ht).2 hr) hnu, jonesMulDD_eq, zero_add]
      rfl
    rw [this]
    simp only [vis', model']
    rw [hvis t ht row hr nu hnu c, Finset.sum_mul, sub_eq_zero]
    exact Finset.sum_congr rfl fun s _ => by ring
  obtain ⟨jhj, jhr, hjhj, hjhr, _⟩ := C27_entries (residual := res) (cnt := cnt) (ant1 := ant1)
    (ant2 := ant2) (nchan := e.nchan) (ndir := e.ndir) (jones := jones) (model := model')
    (flagged := flagged) m hm
  have hjhr0 := C27_jhr_zero m hm jhr hjhr hzero
  let g : Arr5 ℂ := fun t p nu s c =>
    exp (I * (((jones t p nu s c).arg + 0.5 * (jhr t p nu s c / (jhj t p nu s c : ℂ)).re : ℝ) : ℂ))
  -- the convergence measure is zero
  have hmaxE : npMax (elems e fun t p nu s c => |(jones t p nu s c).arg +
      0.5 * (jhr t p nu s c / (jhj t p nu s c : ℂ)).re - (jones t p nu s c).arg|) = .ok 0 := by
    have hall : ∀ x ∈ elems e (fun t p nu s c => |(jones t p nu s c).arg +
        0.5 * (jhr t p nu s c / (jhj t p nu s c : ℂ)).re - (jones t p nu s c).arg|), x = 0 := by
      intro x hx
      simp only [elems, List.mem_flatMap, List.mem_map, List.mem_range] at hx
      obtain ⟨t, ht, p, hp, nu, hnu, s, hs, c, hc, rfl⟩ := hx
      rw [hjhr0 t p nu s c ht hnu hs]
      simp
    cases hl : elems e (fun t p nu s c => |(jones t p nu s c).arg +
        0.5 * (jhr t p nu s c / (jhj t p nu s c : ℂ)).re - (jones t p nu s c).arg|) with
    | nil =>
      exfalso
      have hmem : ∀ (M : Type) (a : Arr5 M), a 0 0 0 0 0 ∈ elems e a := by
        intro M a
        simp only [elems, List.mem_flatMap, List.mem_map, List.mem_range]
        exact ⟨0, hne.1, 0, hne.2.1, 0, hne.2.2.1, 0, hne.2.2.2.1, 0, hne.2.2.2.2, rfl⟩
      have := hmem ℝ (fun t p nu s c => |(jones t p nu s c).arg +
        0.5 * (jhr t p nu s c / (jhj t p nu s c : ℂ)).re - (jones t p nu s c).arg|)
      rw [hl] at this
      cases this
    | cons x xs =>
      rw [hl] at hall
      unfold npMax
      simp only
      rw [hall x (by simp), foldl_max_zero xs fun y hy => hall y (by simp [hy])]
  have hstep : gnStep e idx cnt ant1 ant2 vis' flagged model' jhj jones = .ok (g, jhr, 0) := by
    unfold gnStep
    simp only
    rw [hres]
    simp only
    rw [hjhr]
    simp only
    rw [hmaxE]
  refine ⟨g, jhj, jhr, ?_, ?_⟩
  · unfold gaussNewton
    simp only [checkType]
    simp only [if_true, ne_eq, not_true_eq_false, if_false]
    have hjhj' : computeJhj e.ntim idx cnt ant1 ant2 e.nchan e.ndir jones
      (fun r nu s c => model r nu s c * (Real.sqrt (weight r nu c) : ℂ)) flagged = .ok jhj := hjhj
    rw [hjhj']
    simp only
    obtain ⟨n, rfl⟩ : ∃ n, maxiter = n + 1 := ⟨maxiter - 1, by omega⟩
    have hw : gnWhile (gnStep e idx cnt ant1 ant2 vis' flagged model' jhj) tol (n + 1) 1 0 jones none =
        .ok (g, some jhr, 1) := by
      simp only [gnWhile]
      rw [if_pos htol1, hstep]
      simp only
      cases n with
      | zero => rfl
      | succ n => simp only [gnWhile]; rw [if_neg (not_lt.2 htol0)]
    have hw' : gnWhile (gnStep e idx cnt ant1 ant2 (fun r nu c => vis r nu c * (Real.sqrt (weight r nu c) : ℂ))
        flagged (fun r nu s c => model r nu s c * (Real.sqrt (weight r nu c) : ℂ)) jhj) tol (n + 1) 1 0 jones none =
        .ok (g, some jhr, 1) := hw
    rw [hw']
  · intro t ht p nu hnu s hs c
    simp only [g]
    rw [hjhr0 t p nu s c ht hnu hs]
    have hmod := norm_mul_exp_arg_mul_I (jones t p nu s c)
    rw [hunit, ofReal_one, one_mul] at hmod
    conv_rhs => rw [← hmod]
    congr 1
    simp [mul_comm]

/-- Two antennas, one row, unit gains and unit data meet the hypotheses of the fixed point theorem, with
`tol = 1/1000` and 10 iterations. -/
example : ∃ g jhj jhr, gaussNewton 5 3 ⟨1, 2, 1, 1, 1⟩ (fun _ => 0) (fun _ => 1) (fun _ => 0) (fun _ => 1)
    (fun _ _ _ _ _ => 1) (fun _ _ _ => 2) (fun _ _ => false) (fun _ _ _ _ => 2) (fun _ _ _ => 4) (1 / 1000) 10 =
      .ok (g, jhj, jhr, 1) ∧
    ∀ t < 1, ∀ p, ∀ nu < 1, ∀ s < 1, ∀ c, g t p nu s c = 1 :=
  C29_fixed_point (e := ⟨1, 2, 1, 1, 1⟩) 0 ⟨⟨0, by simp, rfl⟩, fun _ _ => le_rfl⟩
    (fun a (ha : a < 1) b (hb : b < 1) _ _ _ => by omega) 10 (by norm_num) (by norm_num) (by norm_num)
    (by simp)
    (by
      intro jhj h t ht p hp nu hnu s hs c hc
      obtain ⟨jhj', _, h1, _, h3⟩ := C27_entries (ntim := 1) (idx := fun _ => 0) (residual := fun _ _ _ => 0)
        (cnt := fun _ => 1) (ant1 := fun _ => 0) (ant2 := fun _ => 1) (nchan := 1) (ndir := 1)
        (jones := fun _ _ _ _ _ => 1) (model := fun _ _ _ _ => 2 * (Real.sqrt 4 : ℂ))
        (flagged := fun _ _ => false) 0 ⟨⟨0, by omega, rfl⟩, fun _ _ => le_rfl⟩
      cases h.symm.trans h1
      rw [(h3 t ht p nu hnu s hs c).1]
      have h4 : Real.sqrt 4 = 2 := by
        rw [show (4 : ℝ) = 2 ^ 2 by norm_num]; exact Real.sqrt_sq (by norm_num)
      have hp' : p = 0 ∨ p = 1 := by change p < 2 at hp; omega
      rcases hp' with rfl | rfl <;> simp [h4, normSq])
    (by simp) (by intro t _ row _ nu _ c; simp)

end gn

/-! ### C30 -/

section compute
variable {ntim : Nat} {idx cnt : Nat → Nat} {m : Nat}

/-- `t` is the time bin of row `row`, as a total function: the model of `compute_and_corrupt_vis`
has a time axis where that of `corrupt_vis` has a row axis. -/
theorem cMulDD_eq (k : ℝ) (ndir ncorr : Nat) (a1j mod a2j : Nat → Nat → ℂ) (uvw : Fin 3 → ℝ) (freq : ℝ)
    (lm : Nat → Fin 2 → ℝ) (out : Nat → ℂ) (c : Nat) (hc : c < ncorr) :
    cMulDD k ndir ncorr a1j mod a2j uvw freq lm out c =
      jonesMulDD ndir a1j (fun s c => mod s c * fringe k uvw freq (lm s)) a2j out c := by
  rw [jonesMulDD_eq]
  unfold cMulDD
  refine forRange_sum (fun o : Nat → ℂ => o c) _ fun s _ o => ?_
  refine forRange_single (fun o : Nat → ℂ => o c) c hc (fun x => x + _) ?_ ?_
  · intro o; simp
  · intro i _ hi o; simp [Ne.symm hi]

theorem computeTerms_eq (a x b : M2 ℂ) : computeTerms a x b = a * x * b.conjTranspose := by
  ext i j
  rw [full_entries]
  fin_cases i <;> fin_cases j <;> simp [computeTerms] <;> ring

theorem cMulF_eq (k : ℝ) (ndir : Nat) (a1j mod a2j : Nat → M2 ℂ) (uvw : Fin 3 → ℝ) (freq : ℝ)
    (lm : Nat → Fin 2 → ℝ) (out : M2 ℂ) :
    cMulF k ndir a1j mod a2j uvw freq lm out =
      jonesMulF ndir a1j (fun s => fringe k uvw freq (lm s) • mod s) a2j out := by
  rw [jonesMulF_eq]
  refine forRange_sum (fun o : M2 ℂ => o) _ fun s _ o => ?_
  simp only
  rw [← computeTerms_eq]
  have hx : (fun i j => mod s i j * fringe k uvw freq (lm s) : M2 ℂ) =
      fringe k uvw freq (lm s) • mod s := by
    ext i j
    rw [Matrix.smul_apply, smul_eq_mul, mul_comm]
  rw [hx]
  ext i j
  rw [Matrix.add_apply]
  fin_cases i <;> fin_cases j <;> rfl

theorem cMulD_eq (k : ℝ) (ndir : Nat) (a1j : Nat → Fin 2 → ℂ) (mod : Nat → M2 ℂ) (a2j : Nat → Fin 2 → ℂ)
    (uvw : Fin 3 → ℝ) (freq : ℝ) (lm : Nat → Fin 2 → ℝ) (out : M2 ℂ) :
    cMulD k ndir a1j mod a2j uvw freq lm out =
      jonesMulD ndir a1j (fun s => fringe k uvw freq (lm s) • mod s) a2j out := by
  unfold cMulD jonesMulD
  congr 1
  funext s o
  simp only
  simp only [Matrix.smul_apply, smul_eq_mul, mul_comm (fringe k uvw freq (lm s))]

/-- The source visibility phase and amplitude:
`exp(-i 2π/c ν (u l + v m + w (n - 1))) / n` with `n = sqrt(1 - l² - m²)`. -/
def fringeSpec (k u v w freq l mm : ℝ) : ℂ :=
  exp (I * (k * freq * (u * l + v * mm + w * (Real.sqrt (1 - l ^ 2 - mm ^ 2) - 1)) : ℝ)) /
    (Real.sqrt (1 - l ^ 2 - mm ^ 2) : ℝ)

/-- C30. `compute_and_corrupt_vis` equals `corrupt_vis` applied to the model with the fringe of each
source applied; `tb row` is the time bin of each row. All three modes. -/
theorem C30_compute_and_corrupt (k : ℝ) (ant1 ant2 : Nat → Nat) (nchan ndir ncorr : Nat)
    (J : Jones ℂ) (uvw : Nat → Fin 3 → ℝ) (freq : Nat → ℝ) (lm : Nat → Nat → Fin 2 → ℝ)
    (M : ModelVis ℂ) (tb : Nat → Nat) (hm : IsMin ntim idx m) (hd : Disjoint' ntim idx cnt)
    (htb : ∀ t < ntim, ∀ row, InBin idx cnt t (m + row) → tb row = t)
    (F : Nat → Nat → Nat → ℂ)
    (hF : F = fun row nu s => fringeSpec k (uvw row 0) (uvw row 1) (uvw row 2) (freq nu)
      (lm (tb row) s 0) (lm (tb row) s 1))
    (M' : ModelVis ℂ)
    (hM' : M' = match M with
      | .four mod => .four fun row nu s c => mod (tb row) nu s c * F row nu s
      | .five mod => .five fun row nu s => F row nu s • mod (tb row) nu s)
    (V V' : Vis ℂ)
    (hV : computeAndCorruptVis k ntim idx cnt ant1 ant2 nchan ndir ncorr J M uvw freq lm = .ok V)
    (hV' : corruptVis ntim idx cnt ant1 ant2 nchan ndir J M' = .ok V')
    (t : Nat) (ht : t < ntim) (row : Nat) (hr : InBin idx cnt t (m + row)) (nu : Nat) (hnu : nu < nchan) :
    match V, V' with
    | .three v, .three v' => ∀ c < ncorr, v row nu c = v' row nu c
    | .four v, .four v' => v row nu = v' row nu
    | _, _ => False := by
  have hd' := disjoint_shift hm hd
  have hr' := (inBin_shift hm ht).2 hr
  have htr := htb t ht row hr
  unfold computeAndCorruptVis at hV
  unfold corruptVis at hV'
  rw [shiftIdx_ok hm] at hV hV'
  cases M with
  | four mod =>
    simp only at hM'
    subst hM'
    cases J with
    | six j => cases hV
    | five j =>
      cases hV; cases hV'
      intro c hc
      rw [binLoop_bin hd' ht hr' hnu, binLoop_bin hd' ht hr' hnu, cMulDD_eq _ _ _ _ _ _ _ _ _ _ _ hc, hF]
      simp only [htr]
      rfl
  | five mod =>
    simp only at hM'
    subst hM'
    have hsm : ∀ s : Nat, (F row nu s • mod (tb row) nu s : M2 ℂ) =
        fringe k (uvw row) (freq nu) (lm t s) • mod t nu s := by
      intro s
      rw [hF]
      simp only [htr]
      rfl
    cases J with
    | six j =>
      cases hV; cases hV'
      show binLoop ntim _ cnt nchan _ _ row nu = binLoop ntim _ cnt nchan _ _ row nu
      rw [binLoop_bin hd' ht hr' hnu, binLoop_bin hd' ht hr' hnu, cMulF_eq]
      simp only [hsm]
    | five j =>
      cases hV; cases hV'
      show binLoop ntim _ cnt nchan _ _ row nu = binLoop ntim _ cnt nchan _ _ row nu
      rw [binLoop_bin hd' ht hr' hnu, binLoop_bin hd' ht hr' hnu]
      simp only [hsm]
      exact cMulD_eq ..

/-- C30. Neither call fails for admissible axis counts and at least one time. -/
theorem C30_ok (k : ℝ) (ant1 ant2 : Nat → Nat) (nchan ndir ncorr : Nat) (J : Jones ℂ)
    (uvw : Nat → Fin 3 → ℝ) (freq : Nat → ℝ) (lm : Nat → Nat → Fin 2 → ℝ) (M : ModelVis ℂ)
    (hm : IsMin ntim idx m) (hc : ¬ (J.ndim = 6 ∧ M.ndim = 4)) :
    (∃ V, computeAndCorruptVis k ntim idx cnt ant1 ant2 nchan ndir ncorr J M uvw freq lm = .ok V) ∧
    ∃ V, corruptVis ntim idx cnt ant1 ant2 nchan ndir J M = .ok V := by
  unfold computeAndCorruptVis corruptVis
  rw [shiftIdx_ok hm]
  cases J <;> cases M <;> first | exact ⟨⟨_, rfl⟩, ⟨_, rfl⟩⟩ | exact absurd ⟨rfl, rfl⟩ hc

/-- Two time bins of 2 and 1 rows meet the hypotheses of `C30_compute_and_corrupt`. -/
example : IsMin 2 (fun t => 5 + 2 * t) 5 ∧ Disjoint' 2 (fun t => 5 + 2 * t) (fun t => 2 - t) ∧
    (∀ t < 2, ∀ row, InBin (fun t => 5 + 2 * t) (fun t => 2 - t) t (5 + row) →
      (fun row => if row < 2 then 0 else 1 : Nat → Nat) row = t) := by
  refine ⟨⟨⟨0, by omega, rfl⟩, fun t _ => Nat.le_add_right 5 (2 * t)⟩, ?_, ?_⟩
  · intro a ha b hb x h1 h2
    simp only [InBin] at h1 h2
    omega
  · intro t ht row h
    simp only [InBin] at h
    simp only
    split <;> omega

end compute

end Verif.Calibration
