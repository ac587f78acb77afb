/-
Lemmas on integrals of the radial polynomials and of the angular functions, for C147.
-/
import Verif.Rime.PropsZernike
import Mathlib.Algebra.Group.ForwardDiff
import Mathlib.Algebra.Polynomial.Div
import Mathlib.Analysis.SpecialFunctions.Integrals.Basic

set_option autoImplicit false

namespace Verif.Rime.Zern

open Finset Polynomial

/-! ### alternating sums -/

theorem alt_poly (b : Nat) (Q : ℝ[X]) (h : Q = 0 ∨ Q.natDegree < b) :
    ∑ k ∈ range (b + 1), (-1 : ℝ) ^ k * b.choose k * Q.eval (k : ℝ) = 0 := by
  rcases h with rfl | h
  · simp
  · have h1 := congrFun (fwdDiff_iter_eq_zero_of_degree_lt h) 0
    rw [fwdDiff_iter_eq_sum_shift] at h1
    have h2 : ∑ k ∈ range (b + 1), (-1 : ℝ) ^ (b - k) * b.choose k * Q.eval (k : ℝ) = 0 := by
      rw [← show (0 : ℝ → ℝ) 0 = 0 from rfl, ← h1]
      refine sum_congr rfl fun k _ => ?_
      rw [zsmul_eq_mul, zero_add, nsmul_eq_mul, mul_one]
      push_cast
      ring
    have h3 := congrArg (fun z => (-1 : ℝ) ^ b * z) h2
    simp only [mul_sum, mul_zero] at h3
    rw [← h3]
    refine sum_congr rfl fun k hk => ?_
    have hk' : k ≤ b := by rw [mem_range] at hk; omega
    have e : (-1 : ℝ) ^ b * (-1) ^ (b - k) = (-1) ^ k := by
      obtain ⟨d, rfl⟩ := Nat.exists_eq_add_of_le hk'
      rw [Nat.add_sub_cancel_left, pow_add, mul_assoc, ← mul_pow]
      simp
    rw [← e]
    ring

theorem alt_inv (b : Nat) : ∀ y : ℝ, (∀ t ≤ b, y ≠ (t : ℝ)) →
    ∑ k ∈ range (b + 1), (-1 : ℝ) ^ k * b.choose k * (1 / (y - k)) =
      (-1) ^ b * b.factorial / ∏ t ∈ range (b + 1), (y - t) := by
  induction b with
  | zero => intro y _; simp
  | succ b ih =>
    intro y hy
    have hsplit : ∑ k ∈ range (b + 1 + 1), (-1 : ℝ) ^ k * (b + 1).choose k * (1 / (y - k)) =
        ∑ k ∈ range (b + 1), (-1 : ℝ) ^ k * b.choose k * (1 / (y - k)) -
        ∑ k ∈ range (b + 1), (-1 : ℝ) ^ k * b.choose k * (1 / (y - 1 - k)) := by
      rw [sum_range_succ', sum_range_succ' (fun k => (-1 : ℝ) ^ k * b.choose k * (1 / (y - k)))]
      have h1 : ∑ k ∈ range (b + 1), (-1 : ℝ) ^ (k + 1) * (b + 1).choose (k + 1) * (1 / (y - ((k + 1 : ℕ) : ℝ))) =
          ∑ k ∈ range (b + 1), (-1 : ℝ) ^ (k + 1) * b.choose (k + 1) * (1 / (y - ((k + 1 : ℕ) : ℝ))) -
          ∑ k ∈ range (b + 1), (-1 : ℝ) ^ k * b.choose k * (1 / (y - 1 - k)) := by
        rw [← sum_sub_distrib]
        refine sum_congr rfl fun k _ => ?_
        rw [Nat.choose_succ_succ, show y - ((k + 1 : ℕ) : ℝ) = y - 1 - k by push_cast; ring]
        push_cast
        ring
      have h2 : ∑ k ∈ range (b + 1), (-1 : ℝ) ^ (k + 1) * b.choose (k + 1) * (1 / (y - ((k + 1 : ℕ) : ℝ))) =
          ∑ k ∈ range b, (-1 : ℝ) ^ (k + 1) * b.choose (k + 1) * (1 / (y - ((k + 1 : ℕ) : ℝ))) := by
        rw [sum_range_succ, Nat.choose_succ_self]
        simp
      rw [h1, h2]
      simp only [Nat.choose_zero_right]
      ring
    rw [hsplit, ih y (fun t ht => hy t (by omega)), ih (y - 1) (fun t ht h => hy (t + 1) (by omega) (by
      push_cast; linarith))]
    have hP : ∏ t ∈ range (b + 1 + 1), (y - (t : ℝ)) = (∏ t ∈ range (b + 1), (y - (t : ℝ))) * (y - ((b + 1 : ℕ) : ℝ)) :=
      prod_range_succ _ _
    have hP' : ∏ t ∈ range (b + 1 + 1), (y - (t : ℝ)) = (∏ t ∈ range (b + 1), (y - 1 - (t : ℝ))) * y := by
      rw [prod_range_succ']
      simp only [Nat.cast_zero, sub_zero]
      congr 1
      refine prod_congr rfl fun t _ => ?_
      push_cast; ring
    have n1 : ∏ t ∈ range (b + 1), (y - (t : ℝ)) ≠ 0 := prod_ne_zero_iff.2 fun t ht =>
      sub_ne_zero.2 (hy t (by rw [mem_range] at ht; omega))
    have n2 : ∏ t ∈ range (b + 1), (y - 1 - (t : ℝ)) ≠ 0 := prod_ne_zero_iff.2 fun t ht h =>
      hy (t + 1) (by rw [mem_range] at ht; omega) (by push_cast; linarith)
    have ny : y ≠ 0 := by have := hy 0 (by omega); simpa using this
    have nb : y - ((b + 1 : ℕ) : ℝ) ≠ 0 := sub_ne_zero.2 (hy _ le_rfl)
    rw [Nat.factorial_succ, pow_succ]
    have e1 : (-1 : ℝ) ^ b * b.factorial / ∏ t ∈ range (b + 1), (y - (t : ℝ)) =
        (-1) ^ b * b.factorial * (y - ((b + 1 : ℕ) : ℝ)) / ∏ t ∈ range (b + 1 + 1), (y - (t : ℝ)) := by
      rw [hP, mul_div_mul_right _ _ nb]
    have e2 : (-1 : ℝ) ^ b * b.factorial / ∏ t ∈ range (b + 1), (y - 1 - (t : ℝ)) =
        (-1) ^ b * b.factorial * y / ∏ t ∈ range (b + 1 + 1), (y - (t : ℝ)) := by
      rw [hP', mul_div_mul_right _ _ ny]
    rw [e1, e2, ← sub_div]
    congr 1
    push_cast
    ring

/-- Lagrange's formula for the points `0, …, b`. -/
theorem alt_lagrange (b : Nat) (P : ℝ[X]) (hP : P.natDegree ≤ b) (y : ℝ) (hy : ∀ t ≤ b, y ≠ (t : ℝ)) :
    ∑ k ∈ range (b + 1), (-1 : ℝ) ^ k * b.choose k * (P.eval (k : ℝ) / (y - k)) =
      (-1) ^ b * b.factorial * P.eval y / ∏ t ∈ range (b + 1), (y - t) := by
  obtain ⟨Q, hQ⟩ := X_sub_C_dvd_sub_C_eval (a := y) (p := P)
  have hdeg : Q = 0 ∨ Q.natDegree < b := by
    by_cases h : Q = 0
    · exact .inl h
    · right
      have h1 : (P - C (P.eval y)).natDegree = 1 + Q.natDegree := by
        rw [hQ, natDegree_mul (X_sub_C_ne_zero y) h, natDegree_X_sub_C]
      have h2 : (P - C (P.eval y)).natDegree ≤ b := by rw [natDegree_sub_C]; exact hP
      omega
  have h0 := alt_poly b Q hdeg
  have h1 := alt_inv b y hy
  have key : ∀ k ∈ range (b + 1), (-1 : ℝ) ^ k * b.choose k * (P.eval (k : ℝ) / (y - k)) =
      P.eval y * ((-1 : ℝ) ^ k * b.choose k * (1 / (y - k))) - (-1 : ℝ) ^ k * b.choose k * Q.eval (k : ℝ) := by
    intro k hk
    have hk' : k ≤ b := by rw [mem_range] at hk; omega
    have hne : y - (k : ℝ) ≠ 0 := sub_ne_zero.2 (hy k hk')
    have he : P.eval (k : ℝ) = P.eval y - (y - k) * Q.eval (k : ℝ) := by
      have := congrArg (eval (k : ℝ)) hQ
      simp only [eval_sub, eval_C, eval_mul, eval_X] at this
      linarith
    rw [he]
    field_simp
  rw [sum_congr rfl key, sum_sub_distrib, ← mul_sum, h0, h1, sub_zero]
  ring

/-! ### moments of the radial polynomials -/

/-- `(x + 1) (x + 2) ⋯ (x + b)` at `x = a - k`. -/
noncomputable def risingPoly (a b : Nat) : ℝ[X] := ∏ t ∈ range b, (C ((a : ℝ) + t + 1) - X)

theorem risingPoly_degree (a b : Nat) : (risingPoly a b).natDegree ≤ b := by
  unfold risingPoly
  refine (natDegree_prod_le _ _).trans ?_
  refine (sum_le_card_nsmul _ _ 1 fun t _ => ?_).trans (by simp)
  refine (natDegree_sub_le _ _).trans ?_
  rw [natDegree_C, natDegree_X]
  simp

theorem risingPoly_eval (a b : Nat) (x : ℝ) : (risingPoly a b).eval x = ∏ t ∈ range b, ((a : ℝ) + t + 1 - x) := by
  unfold risingPoly
  rw [eval_prod]
  simp

theorem factorial_rising (a b k : Nat) (hk : k ≤ a) :
    ((a + b - k).factorial : ℝ) = (a - k).factorial * ∏ t ∈ range b, ((a : ℝ) + t + 1 - k) := by
  induction b with
  | zero => simp
  | succ b ih =>
    rw [prod_range_succ, ← mul_assoc, ← ih, show a + (b + 1) - k = a + b - k + 1 by omega, Nat.factorial_succ]
    push_cast [Nat.cast_sub (show k ≤ a + b by omega)]
    ring

theorem integral_pow01 (p : Nat) : ∫ x in (0 : ℝ)..1, x ^ p = 1 / ((p : ℝ) + 1) := by
  rw [integral_pow]; simp

/-- Coefficient of the radial polynomial of degree `m + 2b` and order `m`. -/
noncomputable def coef (m b k : Nat) : ℝ :=
  (-1) ^ k * ((m + 2 * b - k).factorial : ℝ) / (k.factorial * (m + b - k).factorial * (b - k).factorial)

theorem radial_eq (m b : Nat) (rho : ℝ) :
    radial (m + 2 * b) m rho = ∑ k ∈ range (b + 1), coef m b k * rho ^ (m + 2 * (b - k)) := by
  unfold radial coef
  rw [show (m + 2 * b - m) / 2 = b by omega, show (m + 2 * b + m) / 2 = m + b by omega]
  refine sum_congr rfl fun k hk => ?_
  rw [mem_range] at hk
  rw [show m + 2 * b - 2 * k = m + 2 * (b - k) by omega]

theorem coef_eq (m b k : Nat) (hk : k ≤ b) :
    coef m b k = (-1) ^ k * b.choose k * (risingPoly (m + b) b).eval (k : ℝ) / b.factorial := by
  unfold coef
  rw [risingPoly_eval, show m + 2 * b - k = m + b + b - k by omega, factorial_rising (m + b) b k (by omega),
    Nat.cast_choose ℝ hk]
  have f1 : (b.factorial : ℝ) ≠ 0 := by exact_mod_cast b.factorial_ne_zero
  have f2 : (k.factorial : ℝ) ≠ 0 := by exact_mod_cast k.factorial_ne_zero
  have f3 : ((b - k).factorial : ℝ) ≠ 0 := by exact_mod_cast (b - k).factorial_ne_zero
  have f4 : ((m + b - k).factorial : ℝ) ≠ 0 := by exact_mod_cast (m + b - k).factorial_ne_zero
  field_simp

theorem prod_lag (y : ℕ) (b : Nat) (h : b < y) : ∏ t ∈ range (b + 1), ((y : ℝ) - t) = (y.factorial : ℝ) / (y - (b + 1)).factorial := by
  have f : ∀ n : ℕ, (n.factorial : ℝ) ≠ 0 := fun n => by exact_mod_cast n.factorial_ne_zero
  induction b with
  | zero =>
    simp only [zero_add, range_one, prod_singleton, Nat.cast_zero, sub_zero]
    obtain ⟨z, rfl⟩ : ∃ z, y = z + 1 := ⟨y - 1, by omega⟩
    rw [Nat.factorial_succ, Nat.add_sub_cancel]
    push_cast
    field_simp [f z]
  | succ b ih =>
    rw [prod_range_succ, ih (by omega)]
    obtain ⟨z, hz⟩ : ∃ z, y - (b + 1) = z + 1 := ⟨y - (b + 1) - 1, by omega⟩
    rw [hz, show y - (b + 1 + 1) = z by omega, Nat.factorial_succ]
    have e : (y : ℝ) - ((b + 1 : ℕ) : ℝ) = z + 1 := by
      have : y = z + 1 + (b + 1) := by omega
      rw [this]; push_cast; ring
    rw [e]
    push_cast
    have := f z
    have h' : (z : ℝ) + 1 ≠ 0 := by positivity
    field_simp

/-- `∫ R(ρ) ρ^{m + 2i} ρ dρ`. -/
theorem radial_moment (m b i : Nat) (hi : i ≤ b) :
    ∫ x in (0 : ℝ)..1, radial (m + 2 * b) m x * x ^ (m + 2 * i) * x =
      if i < b then 0 else (m + b).factorial * b.factorial / (2 * (m + 2 * b + 1).factorial : ℝ) := by
  have h1 : ∀ x : ℝ, radial (m + 2 * b) m x * x ^ (m + 2 * i) * x =
      ∑ k ∈ range (b + 1), coef m b k * x ^ (2 * (m + b - k + i) + 1) := by
    intro x
    rw [radial_eq, sum_mul, sum_mul]
    refine sum_congr rfl fun k hk => ?_
    rw [mem_range] at hk
    rw [show 2 * (m + b - k + i) + 1 = (m + 2 * (b - k)) + (m + 2 * i) + 1 by omega, pow_succ, pow_add]
    ring
  simp only [h1]
  rw [intervalIntegral.integral_finsetSum (fun k _ => (by fun_prop : Continuous fun x : ℝ =>
    coef m b k * x ^ (2 * (m + b - k + i) + 1)).intervalIntegrable _ _)]
  simp only [intervalIntegral.integral_const_mul, integral_pow01]
  have h2 : ∀ k ∈ range (b + 1), coef m b k * (1 / (((2 * (m + b - k + i) + 1 : ℕ) : ℝ) + 1)) =
      1 / (2 * b.factorial) * ((-1 : ℝ) ^ k * b.choose k *
        ((risingPoly (m + b) b).eval (k : ℝ) / (((m + b + i + 1 : ℕ) : ℝ) - k))) := by
    intro k hk
    rw [mem_range] at hk
    rw [coef_eq m b k (by omega)]
    have e : ((2 * (m + b - k + i) + 1 : ℕ) : ℝ) + 1 = 2 * (((m + b + i + 1 : ℕ) : ℝ) - k) := by
      push_cast [Nat.cast_sub (show k ≤ m + b by omega)]
      ring
    rw [e]
    have hne : ((m + b + i + 1 : ℕ) : ℝ) - k ≠ 0 := by
      rw [sub_ne_zero]
      exact_mod_cast (by omega : m + b + i + 1 ≠ k)
    have f1 : (b.factorial : ℝ) ≠ 0 := by exact_mod_cast b.factorial_ne_zero
    field_simp
  rw [sum_congr rfl h2, ← mul_sum, alt_lagrange b _ (risingPoly_degree _ _) _ (fun t ht => by
    exact_mod_cast (by omega : m + b + i + 1 ≠ t))]
  rw [risingPoly_eval]
  by_cases hib : i < b
  · rw [if_pos hib, prod_eq_zero (mem_range.2 hib) (by push_cast; ring)]
    simp
  · have : i = b := by omega
    subst this
    rw [if_neg hib, prod_lag _ _ (by omega), show m + i + i + 1 - (i + 1) = m + i by omega,
      show m + i + i + 1 = m + 2 * i + 1 by omega]
    have h3 : ∏ t ∈ range i, (((m + i : ℕ) : ℝ) + t + 1 - ((m + 2 * i + 1 : ℕ) : ℝ)) = (-1) ^ i * i.factorial := by
      have h4 : ∀ t ∈ range i, ((m + i : ℕ) : ℝ) + t + 1 - ((m + 2 * i + 1 : ℕ) : ℝ) = (-1) * ((i - t : ℕ) : ℝ) := by
        intro t ht
        rw [mem_range] at ht
        push_cast [Nat.cast_sub ht.le]
        ring
      rw [prod_congr rfl h4, prod_mul_distrib, prod_const, card_range]
      congr 1
      have h5 : ∀ n : ℕ, ∏ t ∈ range n, ((n - t : ℕ) : ℝ) = n.factorial := by
        intro n
        induction n with
        | zero => simp
        | succ n ih =>
          rw [prod_range_succ', Nat.factorial_succ]
          simp only [Nat.add_sub_add_right, Nat.sub_zero]
          rw [ih]; push_cast; ring
      exact h5 i
    rw [h3]
    have f1 : (i.factorial : ℝ) ≠ 0 := by exact_mod_cast i.factorial_ne_zero
    have f2 : ((m + i).factorial : ℝ) ≠ 0 := by exact_mod_cast (m + i).factorial_ne_zero
    have f3 : ((m + 2 * i + 1).factorial : ℝ) ≠ 0 := by exact_mod_cast (m + 2 * i + 1).factorial_ne_zero
    have s : (-1 : ℝ) ^ i * (-1) ^ i = 1 := by rw [← mul_pow]; simp
    field_simp
    rw [pow_two, s]

theorem radial_continuous (n m : Nat) : Continuous (radial n m) := by
  unfold radial
  fun_prop

theorem radial_orth_lt (m b b' : Nat) (h : b' < b) :
    ∫ x in (0 : ℝ)..1, radial (m + 2 * b) m x * radial (m + 2 * b') m x * x = 0 := by
  have h1 : ∀ x : ℝ, radial (m + 2 * b) m x * radial (m + 2 * b') m x * x =
      ∑ k ∈ range (b' + 1), coef m b' k * (radial (m + 2 * b) m x * x ^ (m + 2 * (b' - k)) * x) := by
    intro x
    rw [radial_eq m b', mul_sum, sum_mul]
    refine sum_congr rfl fun k _ => ?_
    ring
  simp only [h1]
  have hc := radial_continuous (m + 2 * b) m
  rw [intervalIntegral.integral_finsetSum (fun k _ => (by fun_prop : Continuous fun x : ℝ =>
    coef m b' k * (radial (m + 2 * b) m x * x ^ (m + 2 * (b' - k)) * x)).intervalIntegrable _ _)]
  refine sum_eq_zero fun k _ => ?_
  rw [intervalIntegral.integral_const_mul, radial_moment m b _ (by omega), if_pos (by omega), mul_zero]

/-- Radial polynomials of the same order and different degrees are orthogonal. -/
theorem radial_orth (n n' m : Nat) (h : m ≤ n) (hp : (n - m) % 2 = 0) (h' : m ≤ n') (hp' : (n' - m) % 2 = 0) (hne : n ≠ n') :
    ∫ x in (0 : ℝ)..1, radial n m x * radial n' m x * x = 0 := by
  obtain ⟨b, rfl⟩ : ∃ b, n = m + 2 * b := ⟨(n - m) / 2, by omega⟩
  obtain ⟨b', rfl⟩ : ∃ b', n' = m + 2 * b' := ⟨(n' - m) / 2, by omega⟩
  rcases Nat.lt_or_gt_of_ne (show b ≠ b' by omega) with hl | hl
  · have := radial_orth_lt m b' b hl
    have e : ∀ x : ℝ, radial (m + 2 * b) m x * radial (m + 2 * b') m x * x =
        radial (m + 2 * b') m x * radial (m + 2 * b) m x * x := fun x => by ring
    simpa only [e] using this
  · exact radial_orth_lt m b b' hl

/-- The norm of a radial polynomial. -/
theorem radial_norm (n m : Nat) (h : m ≤ n) (hp : (n - m) % 2 = 0) :
    ∫ x in (0 : ℝ)..1, radial n m x * radial n m x * x = 1 / (2 * ((n : ℝ) + 1)) := by
  obtain ⟨b, rfl⟩ : ∃ b, n = m + 2 * b := ⟨(n - m) / 2, by omega⟩
  have h1 : ∀ x : ℝ, radial (m + 2 * b) m x * radial (m + 2 * b) m x * x =
      ∑ k ∈ range (b + 1), coef m b k * (radial (m + 2 * b) m x * x ^ (m + 2 * (b - k)) * x) := by
    intro x
    conv_lhs => rw [mul_assoc, mul_comm, mul_assoc]
    rw [radial_eq m b, sum_mul]
    refine sum_congr rfl fun k _ => ?_
    ring
  simp only [h1]
  have hc := radial_continuous (m + 2 * b) m
  rw [intervalIntegral.integral_finsetSum (fun k _ => (by fun_prop : Continuous fun x : ℝ =>
    coef m b k * (radial (m + 2 * b) m x * x ^ (m + 2 * (b - k)) * x)).intervalIntegrable _ _)]
  rw [sum_range_succ']
  have hz : ∑ k ∈ range b, ∫ x in (0 : ℝ)..1,
      coef m b (k + 1) * (radial (m + 2 * b) m x * x ^ (m + 2 * (b - (k + 1))) * x) = 0 := by
    refine sum_eq_zero fun k hk => ?_
    rw [mem_range] at hk
    rw [intervalIntegral.integral_const_mul, radial_moment m b _ (by omega), if_pos (by omega), mul_zero]
  rw [hz]
  rw [zero_add, intervalIntegral.integral_const_mul, Nat.sub_zero, radial_moment m b b le_rfl, if_neg (by omega)]
  unfold coef
  simp only [Nat.sub_zero, pow_zero, one_mul, Nat.factorial_zero, Nat.cast_one]
  rw [Nat.factorial_succ]
  have f1 : (b.factorial : ℝ) ≠ 0 := by exact_mod_cast b.factorial_ne_zero
  have f2 : ((m + b).factorial : ℝ) ≠ 0 := by exact_mod_cast (m + b).factorial_ne_zero
  have f3 : ((m + 2 * b).factorial : ℝ) ≠ 0 := by exact_mod_cast (m + 2 * b).factorial_ne_zero
  push_cast
  have f4 : (m : ℝ) + 2 * b + 1 ≠ 0 := by positivity
  field_simp

/-! ### angular functions -/

/-- The angular part of a mode of order `m`. -/
noncomputable def ang (m : Int) (phi : ℝ) : ℝ :=
  if 0 < m then Real.cos (m.natAbs * phi) else if m < 0 then Real.sin (m.natAbs * phi) else 1

theorem ang_continuous (m : Int) : Continuous (ang m) := by
  unfold ang
  split_ifs <;> fun_prop

theorem int_cos (k : Int) : ∫ x in (-Real.pi)..Real.pi, Real.cos (k * x) = if k = 0 then 2 * Real.pi else 0 := by
  split_ifs with h
  · subst h
    simp
    ring
  · have hk : (k : ℝ) ≠ 0 := by exact_mod_cast h
    rw [intervalIntegral.integral_comp_mul_left (fun x => Real.cos x) hk, integral_cos]
    rw [show (k : ℝ) * -Real.pi = -(k * Real.pi) by ring, Real.sin_neg, Real.sin_int_mul_pi]
    simp

theorem int_sin (k : Int) : ∫ x in (-Real.pi)..Real.pi, Real.sin (k * x) = 0 := by
  by_cases h : k = 0
  · subst h
    simp
  · have hk : (k : ℝ) ≠ 0 := by exact_mod_cast h
    rw [intervalIntegral.integral_comp_mul_left (fun x => Real.sin x) hk, integral_sin]
    rw [show (k : ℝ) * -Real.pi = -(k * Real.pi) by ring, Real.cos_neg]
    simp

theorem int_cos_cos (a b : Int) : ∫ x in (-Real.pi)..Real.pi, Real.cos (a * x) * Real.cos (b * x) =
    ((if a - b = 0 then 2 * Real.pi else 0) + (if a + b = 0 then 2 * Real.pi else 0)) / 2 := by
  have e : ∀ x : ℝ, Real.cos (a * x) * Real.cos (b * x) =
      (1 / 2) * Real.cos (((a - b : Int) : ℝ) * x) + (1 / 2) * Real.cos (((a + b : Int) : ℝ) * x) := by
    intro x
    push_cast
    rw [sub_mul, add_mul, Real.cos_sub, Real.cos_add]
    ring
  simp only [e]
  rw [intervalIntegral.integral_add ((by fun_prop : Continuous fun x : ℝ =>
      (1 / 2) * Real.cos (((a - b : Int) : ℝ) * x)).intervalIntegrable _ _)
    ((by fun_prop : Continuous fun x : ℝ => (1 / 2) * Real.cos (((a + b : Int) : ℝ) * x)).intervalIntegrable _ _),
    intervalIntegral.integral_const_mul, intervalIntegral.integral_const_mul, int_cos, int_cos]
  ring

theorem int_sin_sin (a b : Int) : ∫ x in (-Real.pi)..Real.pi, Real.sin (a * x) * Real.sin (b * x) =
    ((if a - b = 0 then 2 * Real.pi else 0) - (if a + b = 0 then 2 * Real.pi else 0)) / 2 := by
  have e : ∀ x : ℝ, Real.sin (a * x) * Real.sin (b * x) =
      (1 / 2) * Real.cos (((a - b : Int) : ℝ) * x) - (1 / 2) * Real.cos (((a + b : Int) : ℝ) * x) := by
    intro x
    push_cast
    rw [sub_mul, add_mul, Real.cos_sub, Real.cos_add]
    ring
  simp only [e]
  rw [intervalIntegral.integral_sub ((by fun_prop : Continuous fun x : ℝ =>
      (1 / 2) * Real.cos (((a - b : Int) : ℝ) * x)).intervalIntegrable _ _)
    ((by fun_prop : Continuous fun x : ℝ => (1 / 2) * Real.cos (((a + b : Int) : ℝ) * x)).intervalIntegrable _ _),
    intervalIntegral.integral_const_mul, intervalIntegral.integral_const_mul, int_cos, int_cos]
  ring

theorem int_sin_cos (a b : Int) : ∫ x in (-Real.pi)..Real.pi, Real.sin (a * x) * Real.cos (b * x) = 0 := by
  have e : ∀ x : ℝ, Real.sin (a * x) * Real.cos (b * x) =
      (1 / 2) * Real.sin (((a + b : Int) : ℝ) * x) + (1 / 2) * Real.sin (((a - b : Int) : ℝ) * x) := by
    intro x
    push_cast
    rw [sub_mul, add_mul, Real.sin_sub, Real.sin_add]
    ring
  simp only [e]
  rw [intervalIntegral.integral_add ((by fun_prop : Continuous fun x : ℝ =>
      (1 / 2) * Real.sin (((a + b : Int) : ℝ) * x)).intervalIntegrable _ _)
    ((by fun_prop : Continuous fun x : ℝ => (1 / 2) * Real.sin (((a - b : Int) : ℝ) * x)).intervalIntegrable _ _),
    intervalIntegral.integral_const_mul, intervalIntegral.integral_const_mul, int_sin, int_sin]
  ring

/-- The angular functions as cosines (orders that are not negative) and sines. -/
theorem ang_eq (m : Int) (x : ℝ) : ang m x = if 0 ≤ m then Real.cos (((m.natAbs : Int) : ℝ) * x)
    else Real.sin (((m.natAbs : Int) : ℝ) * x) := by
  unfold ang
  rcases lt_trichotomy m 0 with h | h | h
  · rw [if_neg (by omega), if_pos h, if_neg (by omega), Int.cast_natCast]
  · subst h
    simp
  · rw [if_pos h, if_pos h.le, Int.cast_natCast]

theorem ang_orth (m m' : Int) : ∫ x in (-Real.pi)..Real.pi, ang m x * ang m' x =
    if m = m' then (if m = 0 then 2 * Real.pi else Real.pi) else 0 := by
  have comm : ∀ a b : Int, ∫ x in (-Real.pi)..Real.pi, Real.cos (a * x) * Real.sin (b * x) = 0 := by
    intro a b
    rw [← int_sin_cos b a]
    simp only [mul_comm]
  simp only [ang_eq]
  by_cases h1 : 0 ≤ m <;> by_cases h2 : 0 ≤ m'
  · simp only [if_pos h1, if_pos h2]
    rw [int_cos_cos]
    split_ifs <;> first | omega | ring
  · simp only [if_pos h1, if_neg h2]
    rw [comm, if_neg (by omega)]
  · simp only [if_neg h1, if_pos h2]
    rw [int_sin_cos, if_neg (by omega)]
  · simp only [if_neg h1, if_neg h2]
    rw [int_sin_sin]
    split_ifs <;> first | omega | ring

end Verif.Rime.Zern
