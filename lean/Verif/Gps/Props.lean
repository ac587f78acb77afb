/-
C88 (distances and covariances), C95 (covariance matrices are positive semi-definite), C96 (power spectrum).
-/
import Verif.Gps.Model
import Mathlib.Analysis.SpecialFunctions.Exponential
import Mathlib.Analysis.SpecialFunctions.Gaussian.FourierTransform
import Mathlib.Topology.Algebra.InfiniteSum.Order
import Mathlib.Tactic.FieldSimp
import Mathlib.Tactic.Positivity
import Mathlib.Tactic.Ring
import Mathlib.Tactic.Linarith

set_option autoImplicit false

namespace Verif.Gps

open Finset (range)

/-! ### specification -/

/-- Column `d` of point `i` of an array of points with `D` columns. -/
def coord (D : Nat) (x : Nd) (i d : Nat) : ℝ := x.data (i * D + d)

/-- Euclidean distance of point `i` of `x` and point `j` of `y`. -/
noncomputable def dist (D : Nat) (x y : Nd) (i j : Nat) : ℝ :=
  Real.sqrt (∑ d ∈ range D, (coord D x i d - coord D y j d) ^ 2)

private theorem list_sum (D : Nat) (f : Nat → ℝ) : ((List.range D).map f).sum = ∑ d ∈ range D, f d := by
  induction D with
  | zero => simp
  | succ D ih => simp [List.range_succ, Finset.sum_range_succ, ih]

/-! ### C88 -/

/-- **C88**, value: for arrays of points with the same number of columns `abs_diff` returns the Euclidean distances. -/
theorem C88_abs_diff (N Np D : Nat) (x xp : Nd) (hx : x.dims = [N, D]) (hp : xp.dims = [Np, D]) :
    ∃ m, absDiff x xp = .ok (N, Np, m) ∧ ∀ i j, m i j = dist D x xp i j := by
  refine ⟨fun a b => Real.sqrt (((List.range D).map fun i => (x.data (a * D + i) - xp.data (b * D + i)) ^ 2).sum), ?_, ?_⟩
  · unfold absDiff
    rw [hx, hp]
    dsimp only
    unfold diffCore
    rw [if_neg (lt_irrefl D)]
    rfl
  · intro i j
    dsimp only
    rw [list_sum]
    rfl

/-- **C88**, value for vectors: `abs_diff` of one dimensional arrays returns absolute differences. -/
theorem C88_abs_diff_vectors (N Np : Nat) (x xp : Nd) (hx : x.dims = [N]) (hp : xp.dims = [Np]) :
    ∃ m, absDiff x xp = .ok (N, Np, m) ∧ ∀ i j, m i j = |x.data i - xp.data j| := by
  refine ⟨fun a b =>
    Real.sqrt (((List.range 1).map fun i => (x.data (a * 1 + i) - xp.data (b * 1 + i)) ^ 2).sum), ?_, ?_⟩
  · unfold absDiff
    rw [hx, hp]
    dsimp only
    unfold diffCore
    rw [if_neg (lt_irrefl 1)]
    simp [Except.map]
  · intro i j
    simp [Real.sqrt_sq_eq_abs]

/-- **C88**: `abs_diff(x, x)` is symmetric with zero diagonal, its entries are non-negative; an entry vanishes only if the points coincide. -/
theorem C88_metric (N D : Nat) (x : Nd) (hx : x.dims = [N, D]) :
    ∃ m, absDiff x x = .ok (N, N, m) ∧ (∀ i j, m i j = m j i) ∧ (∀ i, m i i = 0) ∧ (∀ i j, 0 ≤ m i j) ∧
      ∀ i j, m i j = 0 → ∀ d < D, coord D x i d = coord D x j d := by
  obtain ⟨m, h1, h2⟩ := C88_abs_diff N N D x x hx hx
  refine ⟨m, h1, fun i j => ?_, fun i => ?_, fun i j => ?_, fun i j h d hd => ?_⟩
  · rw [h2, h2]
    unfold dist
    congr 1
    exact Finset.sum_congr rfl fun d _ => by ring
  · rw [h2]; simp [dist]
  · rw [h2]; exact Real.sqrt_nonneg _
  · rw [h2] at h
    have h3 := (Real.sqrt_eq_zero (Finset.sum_nonneg fun d _ => sq_nonneg _)).mp h
    have h4 := (Finset.sum_eq_zero_iff_of_nonneg (fun d _ => sq_nonneg _)).mp h3 d (Finset.mem_range.mpr hd)
    have h5 := pow_eq_zero_iff (two_ne_zero) |>.mp h4
    linarith

/-- **C88**: transposing: `abs_diff(x, y)[i, j] = abs_diff(y, x)[j, i]`. -/
theorem C88_transpose (N Np D : Nat) (x xp : Nd) (hx : x.dims = [N, D]) (hp : xp.dims = [Np, D]) :
    ∃ m m', absDiff x xp = .ok (N, Np, m) ∧ absDiff xp x = .ok (Np, N, m') ∧ ∀ i j, m i j = m' j i := by
  obtain ⟨m, h1, h2⟩ := C88_abs_diff N Np D x xp hx hp
  obtain ⟨m', h1', h2'⟩ := C88_abs_diff Np N D xp x hp hx
  refine ⟨m, m', h1, h1', fun i j => ?_⟩
  rw [h2, h2']
  unfold dist
  congr 1
  exact Finset.sum_congr rfl fun d _ => by ring

/-- **C88**: value of the covariance function: `sigmaf^2 exp(-|x_i - x_j|^2 / (2 l^2))`. -/
theorem C88_kernel_value (N Np D : Nat) (x xp : Nd) (hx : x.dims = [N, D]) (hp : xp.dims = [Np, D]) (sigmaf l : ℝ)
    (_hl : l ≠ 0) :
    ∃ m, exponentialSquared x xp sigmaf l false = .ok (.matrix N Np m) ∧
      ∀ i j, m i j = sigmaf ^ 2 * Real.exp (-dist D x xp i j ^ 2 / (2 * l ^ 2)) := by
  obtain ⟨m, h1, h2⟩ := C88_abs_diff N Np D x xp hx hp
  refine ⟨fun a b => sigmaf ^ 2 * Real.exp (-(m a b) ^ 2 / (2 * l ^ 2)), ?_, fun i j => by dsimp only; rw [h2]⟩
  unfold exponentialSquared
  rw [if_neg (by decide), h1]

/-- **C88**: the covariance matrix of any points is symmetric, has `sigmaf^2` on the diagonal and all its entries lie in
`(0, sigmaf^2]`. -/
theorem C88_kernel (N D : Nat) (x : Nd) (hx : x.dims = [N, D]) (sigmaf l : ℝ) (hs : sigmaf ≠ 0) (hl : l ≠ 0) :
    ∃ m, exponentialSquared x x sigmaf l false = .ok (.matrix N N m) ∧ (∀ i j, m i j = m j i) ∧
      (∀ i, m i i = sigmaf ^ 2) ∧ ∀ i j, 0 < m i j ∧ m i j ≤ sigmaf ^ 2 := by
  obtain ⟨m, h1, h2⟩ := C88_kernel_value N N D x x hx hx sigmaf l hl
  obtain ⟨k, e0, e1, e2, _, _⟩ := C88_metric N D x hx
  obtain ⟨k', e0', e3⟩ := C88_abs_diff N N D x x hx hx
  rw [e0] at e0'
  have hk : k = k' := by simpa using e0'
  subst hk
  have hsq : 0 < sigmaf ^ 2 := by positivity
  refine ⟨m, h1, fun i j => ?_, fun i => ?_, fun i j => ⟨?_, ?_⟩⟩
  · rw [h2, h2, ← e3, ← e3, e1]
  · rw [h2, ← e3, e2]; simp
  · rw [h2]; positivity
  · rw [h2]
    have : Real.exp (-dist D x x i j ^ 2 / (2 * l ^ 2)) ≤ 1 :=
      Real.exp_le_one_iff.mpr (by
        rw [neg_div]
        exact neg_nonpos.mpr (by positivity))
    nlinarith

/-- **C88**: a second array with more columns than the first raises `IndexError`; one with fewer columns is accepted and
the remaining columns of the first are ignored. -/
theorem C88_columns (N D' Np D : Nat) (x xp : Nd) (hx : x.dims = [N, D']) (hp : xp.dims = [Np, D]) :
    (D' < D → absDiff x xp = .error .indexError) ∧
    (D ≤ D' → ∃ m, absDiff x xp = .ok (N, Np, m) ∧
      ∀ i j, m i j = Real.sqrt (∑ d ∈ range D, (coord D' x i d - coord D xp j d) ^ 2)) := by
  unfold absDiff
  rw [hx, hp]
  dsimp only
  unfold diffCore
  refine ⟨fun h => by rw [if_pos h]; rfl, fun h => ?_⟩
  rw [if_neg (by omega)]
  refine ⟨_, rfl, fun i j => ?_⟩
  rw [list_sum]
  rfl

/-! ### C95 -/

/-- The entrywise powers of a Gram matrix are positive semi-definite. -/
theorem power_psd {ι κ : Type*} (s : Finset ι) (t : Finset κ) (y : ι → κ → ℝ) (k : Nat) :
    ∀ d : ι → ℝ, 0 ≤ ∑ i ∈ s, ∑ j ∈ s, d i * d j * (∑ a ∈ t, y i a * y j a) ^ k := by
  induction k with
  | zero =>
    intro d
    simp only [pow_zero, mul_one]
    rw [← Finset.sum_mul_sum]
    exact mul_self_nonneg _
  | succ k ih =>
    intro d
    have : ∑ i ∈ s, ∑ j ∈ s, d i * d j * (∑ a ∈ t, y i a * y j a) ^ (k + 1) =
        ∑ a ∈ t, ∑ i ∈ s, ∑ j ∈ s, (d i * y i a) * (d j * y j a) * (∑ a ∈ t, y i a * y j a) ^ k := by
      rw [Finset.sum_comm]
      simp only [Finset.sum_comm (s := t)]
      rw [Finset.sum_comm]
      refine Finset.sum_congr rfl fun i _ => Finset.sum_congr rfl fun j _ => ?_
      rw [pow_succ, Finset.mul_sum, Finset.mul_sum]
      exact Finset.sum_congr rfl fun a _ => by ring
    rw [this]
    exact Finset.sum_nonneg fun a _ => ih fun i => d i * y i a

/-- The exponential of a Gram matrix is positive semi-definite. -/
theorem exp_psd {ι κ : Type*} (s : Finset ι) (t : Finset κ) (y : ι → κ → ℝ) (d : ι → ℝ) :
    0 ≤ ∑ i ∈ s, ∑ j ∈ s, d i * d j * Real.exp (∑ a ∈ t, y i a * y j a) := by
  have h : HasSum (fun k : Nat => ∑ i ∈ s, ∑ j ∈ s, d i * d j * ((∑ a ∈ t, y i a * y j a) ^ k / k.factorial))
      (∑ i ∈ s, ∑ j ∈ s, d i * d j * Real.exp (∑ a ∈ t, y i a * y j a)) := by
    refine hasSum_sum fun i _ => hasSum_sum fun j _ => HasSum.mul_left _ ?_
    rw [Real.exp_eq_exp_ℝ]
    exact NormedSpace.expSeries_div_hasSum_exp _
  refine h.nonneg fun k => ?_
  have : ∑ i ∈ s, ∑ j ∈ s, d i * d j * ((∑ a ∈ t, y i a * y j a) ^ k / k.factorial) =
      (∑ i ∈ s, ∑ j ∈ s, d i * d j * (∑ a ∈ t, y i a * y j a) ^ k) / k.factorial := by
    rw [Finset.sum_div]
    refine Finset.sum_congr rfl fun i _ => ?_
    rw [Finset.sum_div]
    exact Finset.sum_congr rfl fun j _ => by ring
  rw [this]
  exact div_nonneg (power_psd s t y k d) (by positivity)

/-- **C95**: the covariance matrix of any points is positive semi-definite: every quadratic form is non-negative. -/
theorem C95_positive_semidefinite (N D : Nat) (x : Nd) (hx : x.dims = [N, D]) (sigmaf l : ℝ) (hl : l ≠ 0) :
    ∃ m, exponentialSquared x x sigmaf l false = .ok (.matrix N N m) ∧
      ∀ c : Nat → ℝ, 0 ≤ ∑ i ∈ range N, ∑ j ∈ range N, c i * m i j * c j := by
  obtain ⟨m, h1, h2⟩ := C88_kernel_value N N D x x hx hx sigmaf l hl
  refine ⟨m, h1, fun c => ?_⟩
  have key : ∀ i j, c i * m i j * c j =
      (sigmaf * c i * Real.exp (-(∑ d ∈ range D, coord D x i d ^ 2) / (2 * l ^ 2))) *
      (sigmaf * c j * Real.exp (-(∑ d ∈ range D, coord D x j d ^ 2) / (2 * l ^ 2))) *
      Real.exp (∑ d ∈ range D, (coord D x i d / l) * (coord D x j d / l)) := by
    intro i j
    have e : -dist D x x i j ^ 2 / (2 * l ^ 2) = -(∑ d ∈ range D, coord D x i d ^ 2) / (2 * l ^ 2) +
        -(∑ d ∈ range D, coord D x j d ^ 2) / (2 * l ^ 2) + ∑ d ∈ range D, (coord D x i d / l) * (coord D x j d / l) := by
      unfold dist
      rw [Real.sq_sqrt (Finset.sum_nonneg fun d _ => sq_nonneg _)]
      have : ∑ d ∈ range D, (coord D x i d - coord D x j d) ^ 2 = ∑ d ∈ range D, coord D x i d ^ 2 +
          ∑ d ∈ range D, coord D x j d ^ 2 - 2 * l ^ 2 * ∑ d ∈ range D, (coord D x i d / l) * (coord D x j d / l) := by
        rw [Finset.mul_sum, ← Finset.sum_add_distrib, ← Finset.sum_sub_distrib]
        refine Finset.sum_congr rfl fun d _ => ?_
        field_simp
        ring
      rw [this]
      field_simp
      ring
    rw [h2, e, Real.exp_add, Real.exp_add]
    ring
  simp only [key]
  exact exp_psd (range N) (range D) (fun i d => coord D x i d / l)
    fun i => sigmaf * c i * Real.exp (-(∑ d ∈ range D, coord D x i d ^ 2) / (2 * l ^ 2))

/-! ### C96 -/

/-- Regular grid of `N` points. -/
def IsGrid (N : Nat) (x : Nd) (step : ℝ) : Prop := x.dims = [N, 1] ∧ ∀ i < N, x.data i = x.data 0 + i * step

private theorem pspec_value (N : Nat) (hN : 2 ≤ N) (x : Nd) (step : ℝ) (hx : IsGrid N x step) (sigmaf l : ℝ) :
    exponentialSquared x x sigmaf l true = .ok (.vector N fun k =>
      Real.sqrt (2 * Real.pi * l) * sigmaf ^ 2 * Real.exp (-l ^ 2 * shiftedFreq N step k ^ 2 / 2)) := by
  have e1 : x.data 1 - x.data 0 = step := by rw [hx.2 1 (by omega)]; push_cast; ring
  unfold exponentialSquared
  rw [if_pos rfl]
  unfold pspec
  rw [hx.1]
  dsimp only
  rw [if_neg (by simp), if_neg (by simp), if_neg (by omega), if_neg, e1]
  rintro ⟨i, hi, h⟩
  refine h ?_
  rw [e1, hx.2 (i + 1) (by omega), hx.2 i (by omega)]
  push_cast
  ring

/-- **C96** refuted: at frequency zero (index `N / 2` after the shift) the power spectrum differs from the Fourier transform
of the covariance function, its integral, for every length scale but one: the factor is `sqrt(2 pi l)`, not
`sqrt(2 pi) l`. -/
theorem C96_violated (N : Nat) (hN : 2 ≤ N) (x : Nd) (step : ℝ) (hx : IsGrid N x step) (sigmaf l : ℝ) (hs : sigmaf ≠ 0)
    (hl : 0 < l) (hl1 : l ≠ 1) :
    ∃ v, exponentialSquared x x sigmaf l true = .ok (.vector N v) ∧ shiftedFreq N step (N / 2) = 0 ∧
      v (N / 2) ≠ ∫ t : ℝ, sigmaf ^ 2 * Real.exp (-t ^ 2 / (2 * l ^ 2)) := by
  refine ⟨_, pspec_value N hN x step hx sigmaf l, by simp [shiftedFreq], ?_⟩
  have e0 : shiftedFreq N step (N / 2) = 0 := by simp [shiftedFreq]
  have e1 : (fun t : ℝ => sigmaf ^ 2 * Real.exp (-t ^ 2 / (2 * l ^ 2))) =
      fun t : ℝ => sigmaf ^ 2 * Real.exp (-(1 / (2 * l ^ 2)) * t ^ 2) := by
    funext t; congr 2; field_simp
  rw [e1, MeasureTheory.integral_const_mul, integral_gaussian, e0]
  have e2 : Real.pi / (1 / (2 * l ^ 2)) = 2 * Real.pi * l ^ 2 := by field_simp
  rw [e2]
  simp only [ne_eq, OfNat.ofNat_ne_zero, not_false_eq_true, zero_pow, mul_zero, zero_div, Real.exp_zero, mul_one]
  intro h
  have hs2 : sigmaf ^ 2 ≠ 0 := pow_ne_zero 2 hs
  have h' : Real.sqrt (2 * Real.pi * l) = Real.sqrt (2 * Real.pi * l ^ 2) := by
    apply mul_left_cancel₀ hs2
    rw [← h]; ring
  have hp : 0 < Real.pi := Real.pi_pos
  have h3 := (Real.sqrt_inj (by positivity) (by positivity)).mp h'
  have h4 : l * 1 = l * l := by
    have : 2 * Real.pi * (l * 1) = 2 * Real.pi * (l * l) := by rw [← pow_two, mul_one]; exact h3
    exact mul_left_cancel₀ (by positivity) this
  exact hl1 (mul_left_cancel₀ hl.ne' h4).symm

/-- **C96** (partial: `C96_violated`). On a regular grid the power spectrum at shifted index `k` is, up to the factor
`sqrt l`, the Fourier transform of the covariance function at the *angular* frequency `(k - N/2) / (N step)`. -/
theorem C96_transform_partial (N : Nat) (hN : 2 ≤ N) (x : Nd) (step : ℝ) (hx : IsGrid N x step) (sigmaf l : ℝ)
    (hl : 0 < l) :
    ∃ v, exponentialSquared x x sigmaf l true = .ok (.vector N v) ∧
      ∀ k < N, ((Real.sqrt l * v k : ℝ) : ℂ) =
        ∫ t : ℝ, Complex.exp (Complex.I * ((((k : ℝ) - ((N / 2 : Nat) : ℝ)) / (N * step) : ℝ) : ℂ) * t) *
          ((sigmaf ^ 2 * Real.exp (-t ^ 2 / (2 * l ^ 2)) : ℝ) : ℂ) := by
  refine ⟨_, pspec_value N hN x step hx sigmaf l, fun k _ => ?_⟩
  change _ = ∫ t : ℝ, Complex.exp (Complex.I * ((shiftedFreq N step k : ℝ) : ℂ) * t) * _
  set s := shiftedFreq N step k
  have hb : 0 < (((1 / (2 * l ^ 2) : ℝ)) : ℂ).re := by rw [Complex.ofReal_re]; positivity
  have h := fourierIntegral_gaussian hb (s : ℂ)
  have e1 : (fun t : ℝ => Complex.exp (Complex.I * (s : ℂ) * t) *
      ((sigmaf ^ 2 * Real.exp (-t ^ 2 / (2 * l ^ 2)) : ℝ) : ℂ)) = fun t : ℝ => ((sigmaf ^ 2 : ℝ) : ℂ) *
      (Complex.exp (Complex.I * (s : ℂ) * t) * Complex.exp (-((1 / (2 * l ^ 2) : ℝ) : ℂ) * (t : ℂ) ^ 2)) := by
    funext t
    have : Complex.exp (-((1 / (2 * l ^ 2) : ℝ) : ℂ) * (t : ℂ) ^ 2) = ((Real.exp (-t ^ 2 / (2 * l ^ 2)) : ℝ) : ℂ) := by
      rw [Complex.ofReal_exp]
      congr 1
      push_cast
      field_simp
    rw [this]
    push_cast
    ring
  rw [e1, MeasureTheory.integral_const_mul, h]
  have e2 : (((Real.pi : ℝ) : ℂ) / ((1 / (2 * l ^ 2) : ℝ) : ℂ)) ^ (1 / 2 : ℂ) =
      ((Real.sqrt (2 * Real.pi * l ^ 2) : ℝ) : ℂ) := by
    rw [Real.sqrt_eq_rpow, Complex.ofReal_cpow (by positivity)]
    congr 1
    · push_cast; field_simp
    · push_cast; norm_num
  have e3 : Complex.exp (-(s : ℂ) ^ 2 / (4 * ((1 / (2 * l ^ 2) : ℝ) : ℂ))) =
      ((Real.exp (-l ^ 2 * s ^ 2 / 2) : ℝ) : ℂ) := by
    rw [Complex.ofReal_exp]
    congr 1
    push_cast
    field_simp
    ring
  rw [e2, e3]
  have e4 : Real.sqrt (2 * Real.pi * l ^ 2) = Real.sqrt l * Real.sqrt (2 * Real.pi * l) := by
    rw [← Real.sqrt_mul hl.le]
    congr 1
    ring
  rw [e4]
  push_cast
  ring

/-- **C96**: arguments without a power spectrum: more than one column, different arrays and irregular grids raise
`TypeError` (not the announced `NotImplementedError` and `ValueError`: a tuple is raised). -/
theorem C96_rejects_partial (N D : Nat) (x xp : Nd) (hx : x.dims = [N, D]) (sigmaf l : ℝ)
    (h : D ≠ 1 ∨ (∃ i < N, x.data i ≠ xp.data i) ∨
      (2 ≤ N ∧ ∃ i < N - 1, x.data (i + 1) - x.data i ≠ x.data 1 - x.data 0)) :
    exponentialSquared x xp sigmaf l true = .error .typeError := by
  unfold exponentialSquared
  rw [if_pos rfl]
  unfold pspec
  rw [hx]
  dsimp only
  by_cases h1 : D = 1
  · rw [if_neg (not_not.mpr h1)]
    by_cases h2 : ∃ i < N, x.data i ≠ xp.data i
    · rw [if_pos h2]
    · rw [if_neg h2]
      rcases h with h | h | ⟨h3, h4⟩
      · exact absurd h1 h
      · exact absurd h h2
      · rw [if_neg (by omega), if_pos h4]
  · rw [if_pos h1]

/-- Non-vacuity: a regular grid of four points, and two points in the plane. -/
example : IsGrid 4 ⟨[4, 1], fun i => 1 + i * 2⟩ 2 ∧
    ∃ m, absDiff ⟨[2, 2], fun i => if i = 2 then 3 else if i = 3 then 4 else 0⟩
      ⟨[2, 2], fun i => if i = 2 then 3 else if i = 3 then 4 else 0⟩ = .ok (2, 2, m) ∧ m 1 0 = 5 := by
  refine ⟨⟨rfl, fun i _ => by simp⟩, ?_⟩
  obtain ⟨m, h1, h2⟩ := C88_abs_diff 2 2 2 ⟨[2, 2], fun i => if i = 2 then 3 else if i = 3 then 4 else 0⟩
    ⟨[2, 2], fun i => if i = 2 then 3 else if i = 3 then 4 else 0⟩ rfl rfl
  refine ⟨m, h1, ?_⟩
  rw [h2]
  simp [dist, coord, Finset.sum_range_succ]
  norm_num
  rw [show (25 : ℝ) = 5 ^ 2 by norm_num, Real.sqrt_sq (by norm_num)]

end Verif.Gps
