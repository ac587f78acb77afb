/-
Lemmas for C173: the quadratic bound on the misfit of one row, and the loop over iterations.
-/
import Verif.Calibration.Props3
import Mathlib.Analysis.SpecialFunctions.Trigonometric.Bounds
import Mathlib.Analysis.Calculus.MeanValue
import Mathlib.Tactic.LinearCombination

set_option autoImplicit false

noncomputable section

namespace Verif.Calibration

open Complex

/-- `|e^{iy} - 1 - iy|² ≤ (y²/2)²`. -/
theorem second_order (y : ℝ) :
    (1 - Real.cos y) ^ 2 + (y - Real.sin y) ^ 2 ≤ (y ^ 2 / 2) ^ 2 := by
  have key : ∀ x : ℝ, 0 ≤ x → 0 ≤ x ^ 4 / 4 - x ^ 2 - 2 + 2 * Real.cos x + 2 * x * Real.sin x := by
    intro x hx
    have hd : ∀ z : ℝ, HasDerivAt (fun z : ℝ => z ^ 4 / 4 - z ^ 2 - 2 + 2 * Real.cos z + 2 * z * Real.sin z)
        (z * (z ^ 2 - 2 * (1 - Real.cos z))) z := by
      intro z
      have h1 := ((((hasDerivAt_pow 4 z).div_const 4).sub (hasDerivAt_pow 2 z)).sub_const 2).add
        ((Real.hasDerivAt_cos z).const_mul 2)
      have h2 := h1.add (((hasDerivAt_id z).const_mul 2).mul (Real.hasDerivAt_sin z))
      refine (h2.congr_deriv ?_)
      simp
      ring
    have hmono : MonotoneOn (fun z : ℝ => z ^ 4 / 4 - z ^ 2 - 2 + 2 * Real.cos z + 2 * z * Real.sin z)
        (Set.Ici 0) := by
      refine monotoneOn_of_deriv_nonneg (convex_Ici 0)
        (fun z _ => (hd z).continuousAt.continuousWithinAt)
        (fun z _ => (hd z).differentiableAt.differentiableWithinAt) fun z hz => ?_
      rw [interior_Ici] at hz
      rw [(hd z).deriv]
      have := Real.one_sub_sq_div_two_le_cos (x := z)
      exact mul_nonneg (le_of_lt hz) (by linarith)
    have := hmono (Set.mem_Ici.2 le_rfl) (Set.mem_Ici.2 hx) hx
    simp at this
    linarith
  have hsc := Real.sin_sq_add_cos_sq y
  rcases le_total 0 y with h | h
  · have := key y h
    nlinarith
  · have := key (-y) (by linarith)
    rw [Real.cos_neg, Real.sin_neg] at this
    nlinarith

/-- A quadratic bound on the misfit of one visibility when its prediction turns by `y`. -/
theorem row_bound (d V : ℂ) (h : ‖d‖ ≤ ‖V‖) (y : ℝ) :
    normSq (d - V * exp (I * y)) ≤
      normSq (d - V) - 2 * y * ((starRingEnd ℂ) (I * V) * (d - V)).re + normSq V * y ^ 2 := by
  have hn : normSq d ≤ normSq V := by
    rw [normSq_eq_norm_sq, normSq_eq_norm_sq]
    exact pow_le_pow_left₀ (norm_nonneg _) h 2
  have he : exp (I * y) = (Real.cos y : ℂ) + (Real.sin y : ℂ) * I := by
    rw [mul_comm, exp_mul_I, ofReal_cos, ofReal_sin]
  rw [he]
  obtain ⟨a, b⟩ := d
  obtain ⟨u, v⟩ := V
  simp only [normSq_apply, sub_re, sub_im, mul_re, mul_im, add_re, add_im, ofReal_re, ofReal_im, I_re, I_im,
    map_mul, conj_I, conj_re, conj_im, neg_re, neg_im] at hn ⊢
  have hsc := Real.sin_sq_add_cos_sq y
  have h2 := second_order y
  set C := Real.cos y
  set S := Real.sin y
  -- `z = conj d · V`
  set A := a * u + b * v with hA
  set B := a * v - b * u with hB
  have hz : A ^ 2 + B ^ 2 ≤ (u * u + v * v) ^ 2 := by
    have : A ^ 2 + B ^ 2 = (a * a + b * b) * (u * u + v * v) := by rw [hA, hB]; ring
    rw [this, sq]
    exact mul_le_mul_of_nonneg_right hn (by nlinarith [sq_nonneg u, sq_nonneg v])
  have hw : 0 ≤ u * u + v * v := by nlinarith [sq_nonneg u, sq_nonneg v]
  have hcs : (A * (1 - C) - B * (y - S)) ≤ (u * u + v * v) * (y ^ 2 / 2) := by
    refine abs_le_of_sq_le_sq' ?_ (mul_nonneg hw (by positivity)) |>.2
    calc (A * (1 - C) - B * (y - S)) ^ 2 ≤ (A ^ 2 + B ^ 2) * ((1 - C) ^ 2 + (y - S) ^ 2) := by
          nlinarith [sq_nonneg (A * (y - S) + B * (1 - C))]
      _ ≤ (u * u + v * v) ^ 2 * (y ^ 2 / 2) ^ 2 :=
          mul_le_mul hz h2 (by positivity) (by positivity)
      _ = _ := by ring
  have hC : C ^ 2 = 1 - S ^ 2 := by linarith
  nlinarith [hcs, hsc, hC]

/-- The bound for a set of rows, with all antennas updated at once. -/
theorem rows_bound {K : Type*} (R : Finset K) (p q : K → Nat) (n : Nat) (hp : ∀ k ∈ R, p k < n)
    (hq : ∀ k ∈ R, q k < n) (d V V' : K → ℂ) (h : ∀ k ∈ R, ‖d k‖ ≤ ‖V k‖) (δ J G : Nat → ℝ)
    (hV : ∀ k ∈ R, V' k = V k * exp (I * ((δ (p k) - δ (q k) : ℝ) : ℂ)))
    (hJ : ∀ a < n, J a = ∑ k ∈ R, ((if p k = a then 1 else 0) + (if q k = a then 1 else 0)) * normSq (V k))
    (hG : ∀ a < n, G a = ∑ k ∈ R, ((if p k = a then 1 else 0) - (if q k = a then 1 else 0)) *
      ((starRingEnd ℂ) (I * V k) * (d k - V k)).re)
    (hδ : ∀ a < n, J a * δ a = 1 / 2 * G a) :
    ∑ k ∈ R, normSq (d k - V' k) ≤
      ∑ k ∈ R, normSq (d k - V k) - 2 * ∑ a ∈ Finset.range n, J a * δ a ^ 2 := by
  have h1 : ∑ k ∈ R, normSq (d k - V' k) ≤ ∑ k ∈ R, (normSq (d k - V k) -
      2 * ((δ (p k) - δ (q k)) * ((starRingEnd ℂ) (I * V k) * (d k - V k)).re) +
      2 * ((δ (p k) ^ 2 + δ (q k) ^ 2) * normSq (V k))) := by
    refine Finset.sum_le_sum fun k hk => ?_
    rw [hV k hk]
    refine (row_bound (d k) (V k) (h k hk) _).trans ?_
    have := mul_nonneg (normSq_nonneg (V k)) (sq_nonneg (δ (p k) + δ (q k)))
    nlinarith
  have hsel : ∀ (f : Nat → ℝ) (i : Nat), i < n →
      ∑ a ∈ Finset.range n, f a * (if i = a then 1 else 0) = f i := by
    intro f i hi
    rw [Finset.sum_eq_single i]
    · simp
    · intro b _ hb; rw [if_neg (Ne.symm hb), mul_zero]
    · intro hb; exact absurd (Finset.mem_range.2 hi) hb
  have h2 : ∑ k ∈ R, (δ (p k) - δ (q k)) * ((starRingEnd ℂ) (I * V k) * (d k - V k)).re =
      ∑ a ∈ Finset.range n, δ a * G a := by
    have : ∑ a ∈ Finset.range n, δ a * G a = ∑ a ∈ Finset.range n, ∑ k ∈ R, δ a *
        (((if p k = a then 1 else 0) - (if q k = a then 1 else 0)) *
          ((starRingEnd ℂ) (I * V k) * (d k - V k)).re) :=
      Finset.sum_congr rfl fun a ha => by rw [hG a (Finset.mem_range.1 ha), Finset.mul_sum]
    rw [this, Finset.sum_comm]
    refine Finset.sum_congr rfl fun k hk => ?_
    rw [← hsel δ (p k) (hp k hk), ← hsel δ (q k) (hq k hk), ← Finset.sum_sub_distrib, Finset.sum_mul]
    refine Finset.sum_congr rfl fun a _ => by ring
  have h3 : ∑ k ∈ R, (δ (p k) ^ 2 + δ (q k) ^ 2) * normSq (V k) =
      ∑ a ∈ Finset.range n, J a * δ a ^ 2 := by
    have : ∑ a ∈ Finset.range n, J a * δ a ^ 2 = ∑ a ∈ Finset.range n, ∑ k ∈ R,
        ((if p k = a then 1 else 0) + (if q k = a then 1 else 0)) * normSq (V k) * δ a ^ 2 :=
      Finset.sum_congr rfl fun a ha => by rw [hJ a (Finset.mem_range.1 ha), Finset.sum_mul]
    rw [this, Finset.sum_comm]
    refine Finset.sum_congr rfl fun k hk => ?_
    rw [← hsel (fun a => δ a ^ 2) (p k) (hp k hk), ← hsel (fun a => δ a ^ 2) (q k) (hq k hk),
      ← Finset.sum_add_distrib, Finset.sum_mul]
    refine Finset.sum_congr rfl fun a _ => by ring
  have h4 : ∑ a ∈ Finset.range n, δ a * G a = 2 * ∑ a ∈ Finset.range n, J a * δ a ^ 2 := by
    rw [Finset.mul_sum]
    refine Finset.sum_congr rfl fun a ha => ?_
    have := hδ a (Finset.mem_range.1 ha)
    linear_combination -2 * δ a * this
  rw [Finset.sum_add_distrib, Finset.sum_sub_distrib, ← Finset.mul_sum, ← Finset.mul_sum, h2, h3, h4] at h1
  linarith

section loop
variable {step : Arr5 ℂ → Except PyErr (Arr5 ℂ × Arr5 ℂ × ℝ)} {tol : ℝ}

/-- A quantity that no iteration increases is not increased by further iterations. -/
theorem gnWhile_mono (P : Arr5 ℂ → Prop) (F : Arr5 ℂ → ℝ)
    (hstep : ∀ j g jhr eps, P j → step j = .ok (g, jhr, eps) → P g ∧ F g ≤ F j)
    (n n' : Nat) (hn : n ≤ n') (eps : ℝ) (k : Nat) (j : Arr5 ℂ) (hj : P j) (jhr0 : Option (Arr5 ℂ))
    (g g' : Arr5 ℂ) (r r' : Option (Arr5 ℂ)) (k1 k1' : Nat)
    (h : gnWhile step tol n eps k j jhr0 = .ok (g, r, k1))
    (h' : gnWhile step tol n' eps k j jhr0 = .ok (g', r', k1')) : F g' ≤ F g := by
  induction n' generalizing n eps k j jhr0 g r k1 with
  | zero =>
    obtain rfl : n = 0 := by omega
    rw [h] at h'
    cases h'
    exact le_rfl
  | succ n' ih =>
    simp only [gnWhile] at h'
    split at h'
    · rename_i hlt
      cases hs : step j with
      | error err => rw [hs] at h'; cases h'
      | ok x =>
        obtain ⟨g1, jhr1, eps1⟩ := x
        rw [hs] at h'
        simp only at h'
        obtain ⟨hP, hF⟩ := hstep j g1 jhr1 eps1 hj hs
        cases n with
        | zero =>
          simp only [gnWhile] at h
          cases h
          exact (ih 0 (Nat.zero_le _) eps1 _ g1 hP (some jhr1) _ _ _ rfl h').trans hF
        | succ n =>
          simp only [gnWhile] at h
          rw [if_pos hlt, hs] at h
          exact ih n (by omega) eps1 (k + 1) g1 hP (some jhr1) g r k1 h h'
    · rename_i hlt
      cases h'
      cases n with
      | zero => simp only [gnWhile] at h; cases h; exact le_rfl
      | succ n =>
        simp only [gnWhile] at h
        rw [if_neg hlt] at h
        cases h
        exact le_rfl

/-- If every iteration lowers a non-negative quantity in proportion to the square of the largest phase
change, the number of iterations is bounded. -/
theorem gnWhile_count (P : Arr5 ℂ → Prop) (F : Arr5 ℂ → ℝ) (κ : ℝ) (hκ : 0 ≤ κ) (htol : 0 ≤ tol)
    (hstep : ∀ j g jhr eps, P j → step j = .ok (g, jhr, eps) → P g ∧ F g + κ * eps ^ 2 ≤ F j)
    (n : Nat) (eps : ℝ) (k : Nat) (j : Arr5 ℂ) (hj : P j) (jhr0 : Option (Arr5 ℂ))
    (g : Arr5 ℂ) (r : Option (Arr5 ℂ)) (k1 : Nat)
    (h : gnWhile step tol n eps k j jhr0 = .ok (g, r, k1)) (hk : k < k1) :
    κ * tol ^ 2 * (((k1 : ℝ) - k) - 1) ≤ F j - F g := by
  induction n generalizing eps k j jhr0 with
  | zero => simp only [gnWhile] at h; cases h; omega
  | succ n ih =>
    simp only [gnWhile] at h
    split at h
    · cases hs : step j with
      | error err => rw [hs] at h; cases h
      | ok x =>
        obtain ⟨g1, jhr1, eps1⟩ := x
        rw [hs] at h
        simp only at h
        obtain ⟨hP, hF⟩ := hstep j g1 jhr1 eps1 hj hs
        rcases Nat.lt_or_ge (k + 1) k1 with hlt | hge
        · have hi := ih eps1 (k + 1) g1 hP (some jhr1) h hlt
          have heps : tol < eps1 := by
            cases n with
            | zero => simp only [gnWhile] at h; cases h; omega
            | succ n =>
              simp only [gnWhile] at h
              split at h
              · assumption
              · cases h; omega
          have hsq : κ * tol ^ 2 ≤ κ * eps1 ^ 2 :=
            mul_le_mul_of_nonneg_left (pow_le_pow_left₀ htol heps.le 2) hκ
          push_cast at hi
          nlinarith
        · obtain rfl : k1 = k + 1 := by omega
          have hg : g = g1 := by
            cases n with
            | zero => simp only [gnWhile] at h; cases h; rfl
            | succ n =>
              simp only [gnWhile] at h
              split at h
              · exfalso
                cases hs2 : step g1 with
                | error err => rw [hs2] at h; cases h
                | ok x =>
                  obtain ⟨g2, jhr2, eps2⟩ := x
                  rw [hs2] at h
                  simp only at h
                  have : ∀ (n : Nat) (eps : ℝ) (k k1 : Nat) (j : Arr5 ℂ) (r0 : Option (Arr5 ℂ)),
                      gnWhile step tol n eps k j r0 = .ok (g, r, k1) → k ≤ k1 := by
                    intro n
                    induction n with
                    | zero => intro eps k k1 j r0 h; simp only [gnWhile] at h; cases h; exact le_rfl
                    | succ n ih2 =>
                      intro eps k k1 j r0 h
                      simp only [gnWhile] at h
                      split at h
                      · cases hs3 : step j with
                        | error err => rw [hs3] at h; cases h
                        | ok x =>
                          obtain ⟨_, _, _⟩ := x
                          rw [hs3] at h
                          have := ih2 _ _ _ _ _ h
                          omega
                      · cases h; exact le_rfl
                  have := this _ _ _ _ _ _ h
                  omega
              · cases h; rfl
          subst hg
          push_cast
          have := mul_nonneg hκ (sq_nonneg eps1)
          nlinarith
    · cases h; omega

/-- A run that ended before its last allowed iteration is not changed by allowing more. -/
theorem gnWhile_stable (n n' : Nat) (hn : n ≤ n') (eps : ℝ) (k : Nat) (j : Arr5 ℂ)
    (jhr0 : Option (Arr5 ℂ)) (g : Arr5 ℂ) (r : Option (Arr5 ℂ)) (k1 : Nat)
    (h : gnWhile step tol n eps k j jhr0 = .ok (g, r, k1)) (hk : k1 < k + n) :
    gnWhile step tol n' eps k j jhr0 = .ok (g, r, k1) := by
  induction n generalizing n' eps k j jhr0 with
  | zero => simp only [gnWhile] at h; cases h; omega
  | succ n ih =>
    obtain ⟨n', rfl⟩ : ∃ q, n' = q + 1 := ⟨n' - 1, by omega⟩
    simp only [gnWhile] at h ⊢
    split at h
    · rename_i hlt
      rw [if_pos hlt]
      cases hs : step j with
      | error err => rw [hs] at h; cases h
      | ok x =>
        obtain ⟨g1, jhr1, eps1⟩ := x
        rw [hs] at h
        simp only at h ⊢
        exact ih n' (by omega) eps1 (k + 1) g1 (some jhr1) h (by omega)
    · rename_i hlt
      rw [if_neg hlt]
      exact h

/-- A loop whose iterations succeed succeeds. -/
theorem gnWhile_ok (hstep : ∀ j, ∃ x, step j = .ok x) (n : Nat) (eps : ℝ) (k : Nat) (j : Arr5 ℂ)
    (jhr0 : Option (Arr5 ℂ)) : ∃ x, gnWhile step tol n eps k j jhr0 = .ok x := by
  induction n generalizing eps k j jhr0 with
  | zero => exact ⟨_, rfl⟩
  | succ n ih =>
    simp only [gnWhile]
    split
    · obtain ⟨x, hx⟩ := hstep j
      rw [hx]
      exact ih _ _ _ _
    · exact ⟨_, rfl⟩

end loop

end Verif.Calibration
