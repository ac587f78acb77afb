/-
C188: covariances of distinct points are positive definite.
-/
import Verif.Gps.Props
import Mathlib.Tactic.LinearCombination

set_option autoImplicit false

namespace Verif.Gps

open Finset (range)

/-! ### Lemmas -/

/-- The quadratic form of the power `k` of the inner products of points. -/
private noncomputable def powerForm {ι κ : Type*} (s : Finset ι) (t : Finset κ) (y : ι → κ → ℝ) (k : Nat) (d : ι → ℝ) : ℝ :=
  ∑ i ∈ s, ∑ j ∈ s, d i * d j * (∑ a ∈ t, y i a * y j a) ^ k

private theorem powerForm_succ {ι κ : Type*} (s : Finset ι) (t : Finset κ) (y : ι → κ → ℝ) (k : Nat) (d : ι → ℝ) :
    powerForm s t y (k + 1) d = ∑ a ∈ t, powerForm s t y k fun i => d i * y i a := by
  unfold powerForm
  rw [Finset.sum_comm]
  simp only [Finset.sum_comm (s := t)]
  rw [Finset.sum_comm]
  refine Finset.sum_congr rfl fun i _ => Finset.sum_congr rfl fun j _ => ?_
  rw [pow_succ, Finset.mul_sum, Finset.mul_sum]
  exact Finset.sum_congr rfl fun a _ => by ring

private theorem powerForm_zero {ι κ : Type*} (s : Finset ι) (t : Finset κ) (y : ι → κ → ℝ) (d : ι → ℝ) :
    powerForm s t y 0 d = (∑ i ∈ s, d i) ^ 2 := by
  unfold powerForm
  simp only [pow_zero, mul_one]
  rw [← Finset.sum_mul_sum, sq]

private theorem powerForm_nonneg {ι κ : Type*} (s : Finset ι) (t : Finset κ) (y : ι → κ → ℝ) (k : Nat) :
    ∀ d : ι → ℝ, 0 ≤ powerForm s t y k d := by
  induction k with
  | zero => intro d; rw [powerForm_zero]; positivity
  | succ k ih => intro d; rw [powerForm_succ]; exact Finset.sum_nonneg fun a _ => ih _

private theorem words {ι κ : Type*} (s : Finset ι) (t : Finset κ) (y : ι → κ → ℝ) :
    ∀ (w : List κ) (d : ι → ℝ), (∀ a ∈ w, a ∈ t) → (∀ k, powerForm s t y k d = 0) →
      ∑ i ∈ s, d i * (w.map (y i)).prod = 0 := by
  intro w
  induction w with
  | nil =>
    intro d _ h
    have := h 0
    rw [powerForm_zero] at this
    simpa using this
  | cons a w ih =>
    intro d hw h
    have h' : ∀ k, powerForm s t y k (fun i => d i * y i a) = 0 := by
      intro k
      have e := h (k + 1)
      rw [powerForm_succ, Finset.sum_eq_zero_iff_of_nonneg fun b _ => powerForm_nonneg s t y k _] at e
      exact e a (hw a (by simp))
    rw [← ih _ (fun b hb => hw b (by simp [hb])) h']
    refine Finset.sum_congr rfl fun i _ => ?_
    simp only [List.map_cons, List.prod_cons]
    ring

/-- The functions of the points that are orthogonal to `d` with every product of coordinates. -/
private def Annihilates {ι κ : Type*} (s : Finset ι) (t : Finset κ) (y : ι → κ → ℝ) (d p : ι → ℝ) : Prop :=
  ∀ w : List κ, (∀ a ∈ w, a ∈ t) → ∑ i ∈ s, d i * (p i * (w.map (y i)).prod) = 0

private theorem annihilates_shift {ι κ : Type*} {s : Finset ι} {t : Finset κ} {y : ι → κ → ℝ} {d p : ι → ℝ}
    (h : Annihilates s t y d p) (a : κ) (ha : a ∈ t) (r : ℝ) : Annihilates s t y d fun i => p i * (y i a - r) := by
  intro w hw
  have h1 := h (a :: w) (by intro b hb; rcases List.mem_cons.1 hb with rfl | hb; exacts [ha, hw b hb])
  have h2 := h w hw
  have : ∀ i ∈ s, d i * (p i * (y i a - r) * (w.map (y i)).prod) =
      d i * (p i * ((a :: w).map (y i)).prod) - r * (d i * (p i * (w.map (y i)).prod)) := by
    intro i _
    simp only [List.map_cons, List.prod_cons]
    ring
  rw [Finset.sum_congr rfl this, Finset.sum_sub_distrib, ← Finset.mul_sum, h1, h2]
  ring

private theorem annihilates_dist {ι κ : Type*} {s : Finset ι} {t : Finset κ} {y : ι → κ → ℝ} {d p : ι → ℝ}
    (h : Annihilates s t y d p) (z : κ → ℝ) : Annihilates s t y d fun i => p i * ∑ a ∈ t, (y i a - z a) ^ 2 := by
  intro w hw
  have : ∀ i ∈ s, d i * (p i * (∑ a ∈ t, (y i a - z a) ^ 2) * (w.map (y i)).prod) =
      ∑ a ∈ t, d i * (p i * (y i a - z a) * (y i a - z a) * (w.map (y i)).prod) := by
    intro i _
    rw [Finset.mul_sum, Finset.sum_mul, Finset.mul_sum]
    exact Finset.sum_congr rfl fun a _ => by ring
  rw [Finset.sum_congr rfl this, Finset.sum_comm]
  exact Finset.sum_eq_zero fun a ha => annihilates_shift (annihilates_shift h a ha (z a)) a ha (z a) w hw

private theorem exp_definite {ι κ : Type*} [DecidableEq ι] (s : Finset ι) (t : Finset κ) (y : ι → κ → ℝ) (d : ι → ℝ)
    (hy : ∀ i ∈ s, ∀ j ∈ s, i ≠ j → ∃ a ∈ t, y i a ≠ y j a)
    (h0 : ∑ i ∈ s, ∑ j ∈ s, d i * d j * Real.exp (∑ a ∈ t, y i a * y j a) = 0) : ∀ i ∈ s, d i = 0 := by
  have h : HasSum (fun k : Nat => powerForm s t y k d / k.factorial) 0 := by
    rw [← h0]
    have : (fun k : Nat => powerForm s t y k d / k.factorial) =
        fun k : Nat => ∑ i ∈ s, ∑ j ∈ s, d i * d j * ((∑ a ∈ t, y i a * y j a) ^ k / k.factorial) := by
      funext k
      unfold powerForm
      rw [Finset.sum_div]
      refine Finset.sum_congr rfl fun i _ => ?_
      rw [Finset.sum_div]
      exact Finset.sum_congr rfl fun j _ => by ring
    rw [this]
    refine hasSum_sum fun i _ => hasSum_sum fun j _ => HasSum.mul_left _ ?_
    rw [Real.exp_eq_exp_ℝ]
    exact NormedSpace.expSeries_div_hasSum_exp _
  have hz := (hasSum_zero_iff_of_nonneg fun k => div_nonneg (powerForm_nonneg s t y k d) (by positivity)).1 h
  have hk : ∀ k, powerForm s t y k d = 0 := by
    intro k
    have := congrFun hz k
    simp only [Pi.zero_apply, div_eq_zero_iff] at this
    exact this.resolve_right (by exact_mod_cast k.factorial_ne_zero)
  have hall : ∀ J : Finset ι, Annihilates s t y d fun i => ∏ j ∈ J, ∑ a ∈ t, (y i a - y j a) ^ 2 := by
    intro J
    induction J using Finset.induction_on with
    | empty =>
      intro w hw
      simpa using words s t y w d hw hk
    | insert j J hj ih =>
      have := annihilates_dist ih (y j)
      intro w hw
      rw [← this w hw]
      refine Finset.sum_congr rfl fun i _ => ?_
      dsimp only
      rw [Finset.prod_insert hj]
      ring
  intro i hi
  have e := hall (s.erase i) [] (by simp)
  simp only [List.map_nil, List.prod_nil, mul_one] at e
  rw [Finset.sum_eq_single i] at e
  · refine (mul_eq_zero.1 e).resolve_right (Finset.prod_ne_zero_iff.2 fun j hj => ?_)
    obtain ⟨a, ha, hne⟩ := hy i hi j (Finset.mem_of_mem_erase hj) (Finset.ne_of_mem_erase hj).symm
    exact (Finset.sum_pos' (fun _ _ => sq_nonneg _) ⟨a, ha, by have := sub_ne_zero.2 hne; positivity⟩).ne'
  · intro j hj hne
    rw [Finset.prod_eq_zero (Finset.mem_erase.2 ⟨hne, hj⟩), mul_zero]
    simp
  · exact fun h => absurd hi h

/-! ### The property -/

/-- **C188** The covariance matrix of distinct points is positive definite: no combination of the values at the points, other
than zero, has variance zero. -/
theorem C188_definite (N D : Nat) (x : Nd) (hx : x.dims = [N, D]) (sigmaf l : ℝ) (hs : sigmaf ≠ 0) (hl : l ≠ 0)
    (hdist : ∀ i < N, ∀ j < N, i ≠ j → ∃ d < D, coord D x i d ≠ coord D x j d) :
    ∃ m, exponentialSquared x x sigmaf l false = .ok (.matrix N N m) ∧
      ∀ c : Nat → ℝ, (∃ i < N, c i ≠ 0) → 0 < ∑ i ∈ range N, ∑ j ∈ range N, c i * m i j * c j := by
  obtain ⟨m, h1, h2⟩ := C88_kernel_value N N D x x hx hx sigmaf l hl
  obtain ⟨m', h1', hpos⟩ := C95_positive_semidefinite N D x hx sigmaf l hl
  obtain rfl : m = m' := by
    rw [h1] at h1'
    simpa using h1'
  refine ⟨m, h1, fun c ⟨i0, hi0, hc⟩ => lt_of_le_of_ne (hpos c) fun h0 => hc ?_⟩
  have key : ∀ i j, c i * m i j * c j =
      (sigmaf * c i * Real.exp (-(∑ d ∈ range D, coord D x i d ^ 2) / (2 * l ^ 2))) *
      (sigmaf * c j * Real.exp (-(∑ d ∈ range D, coord D x j d ^ 2) / (2 * l ^ 2))) *
      Real.exp (∑ d ∈ range D, (coord D x i d / l) * (coord D x j d / l)) := by
    intro i j
    have e : -dist D x x i j ^ 2 / (2 * l ^ 2) = -(∑ d ∈ range D, coord D x i d ^ 2) / (2 * l ^ 2) +
        -(∑ d ∈ range D, coord D x j d ^ 2) / (2 * l ^ 2) + ∑ d ∈ range D, (coord D x i d / l) * (coord D x j d / l) := by
      unfold dist
      rw [Real.sq_sqrt (Finset.sum_nonneg fun d _ => sq_nonneg _)]
      have : ∑ d ∈ range D, (coord D x i d - coord D x j d) ^ 2 = ∑ d ∈ range D, coord D x i d ^ 2 +
          ∑ d ∈ range D, coord D x j d ^ 2 - 2 * l ^ 2 * ∑ d ∈ range D, (coord D x i d / l) * (coord D x j d / l) := by
        rw [Finset.mul_sum, ← Finset.sum_add_distrib, ← Finset.sum_sub_distrib]
        refine Finset.sum_congr rfl fun d _ => ?_
        field_simp
        ring
      rw [this]
      field_simp
      ring
    rw [h2, e, Real.exp_add, Real.exp_add]
    ring
  simp only [key] at h0
  have := exp_definite (range N) (range D) (fun i d => coord D x i d / l)
    (fun i => sigmaf * c i * Real.exp (-(∑ d ∈ range D, coord D x i d ^ 2) / (2 * l ^ 2))) (by
      intro i hi j hj hne
      obtain ⟨d, hd, h⟩ := hdist i (Finset.mem_range.1 hi) j (Finset.mem_range.1 hj) hne
      refine ⟨d, Finset.mem_range.2 hd, fun e => h ?_⟩
      field_simp at e
      exact e) h0.symm i0 (Finset.mem_range.2 hi0)
  rcases mul_eq_zero.1 this with h | h
  · exact (mul_eq_zero.1 h).resolve_left hs
  · exact absurd h (Real.exp_ne_zero _)

/-- **C188** Distinct points are necessary: the difference of the values at two equal points has variance zero. -/
theorem C188_equal (N D : Nat) (x : Nd) (hx : x.dims = [N, D]) (sigmaf l : ℝ) (hl : l ≠ 0) (a b : Nat) (ha : a < N) (hb : b < N)
    (hab : a ≠ b) (heq : ∀ d < D, coord D x a d = coord D x b d) :
    ∃ m, exponentialSquared x x sigmaf l false = .ok (.matrix N N m) ∧ ∃ c : Nat → ℝ, c a ≠ 0 ∧
      ∑ i ∈ range N, ∑ j ∈ range N, c i * m i j * c j = 0 := by
  obtain ⟨m, h1, h2⟩ := C88_kernel_value N N D x x hx hx sigmaf l hl
  refine ⟨m, h1, fun i => if i = a then 1 else if i = b then -1 else 0, by simp, ?_⟩
  have hm : ∀ i, m i a = m i b := by
    intro i
    rw [h2, h2]
    unfold dist
    rw [Finset.sum_congr rfl fun d hd => by rw [heq d (Finset.mem_range.1 hd)]]
  refine Finset.sum_eq_zero fun i _ => ?_
  rw [← Finset.sum_subset (s₁ := {a, b})]
  · rw [Finset.sum_pair hab]
    dsimp only
    rw [if_pos rfl, if_neg hab.symm, if_pos rfl, hm i]
    ring
  · intro j hj
    simp only [Finset.mem_insert, Finset.mem_singleton] at hj
    rcases hj with rfl | rfl <;> simpa
  · intro j _ hj
    simp only [Finset.mem_insert, Finset.mem_singleton, not_or] at hj
    dsimp only
    rw [if_neg hj.1, if_neg hj.2, mul_zero]

/-- Three distinct points of the plane meet the hypotheses of `C188_definite`. -/
example : ∀ i < 3, ∀ j < 3, i ≠ j → ∃ d < 2,
    coord 2 ⟨[3, 2], fun k => if k = 2 ∨ k = 5 then 1 else 0⟩ i d ≠ coord 2 ⟨[3, 2], fun k => if k = 2 ∨ k = 5 then 1 else 0⟩ j d := by
  intro i hi j hj hne
  have hi' : i = 0 ∨ i = 1 ∨ i = 2 := by omega
  have hj' : j = 0 ∨ j = 1 ∨ j = 2 := by omega
  rcases hi' with rfl | rfl | rfl <;> rcases hj' with rfl | rfl | rfl <;> first
    | exact absurd rfl hne
    | (refine ⟨0, by norm_num, ?_⟩; unfold coord; norm_num; done)
    | (refine ⟨1, by norm_num, ?_⟩; unfold coord; norm_num)

end Verif.Gps
