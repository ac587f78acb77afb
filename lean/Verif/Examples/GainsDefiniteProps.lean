/-
C188: the covariances of the simulated gains can be factored.
-/
import Verif.Examples.GainsProps
import Verif.Gps.DefiniteProps
import Mathlib.Analysis.Matrix.Order
import Mathlib.Data.List.GetD

set_option autoImplicit false

namespace Verif.Examples

open Verif.Gps Verif.Linalg.Kron
open Finset (range)

/-! ### Specification -/

/-- Specification: a symmetric matrix whose quadratic form is positive except at zero. -/
def Definite (M : Mat ℝ) : Prop :=
  M.cols = M.rows ∧ (∀ i < M.rows, ∀ j < M.rows, M.at' i j = M.at' j i) ∧
    ∀ c : Nat → ℝ, (∃ i < M.rows, c i ≠ 0) → 0 < ∑ i ∈ range M.rows, ∑ j ∈ range M.rows, c i * M.at' i j * c j

/-- Specification: a symmetric matrix whose quadratic form is never negative. -/
def Semidefinite (M : Mat ℝ) : Prop :=
  M.cols = M.rows ∧ (∀ i < M.rows, ∀ j < M.rows, M.at' i j = M.at' j i) ∧
    ∀ c : Nat → ℝ, 0 ≤ ∑ i ∈ range M.rows, ∑ j ∈ range M.rows, c i * M.at' i j * c j

/-! ### Lemmas -/

private theorem definite_of_points (M : Mat ℝ) (n D : Nat) (sigma len : ℝ) (hs : sigma ≠ 0) (hl : len ≠ 0)
    (dist2 : Nat → Nat → ℝ) (h : Holds M n (sigma ^ 2) len dist2) (x : Nat → ℝ)
    (hx : ∀ i < n, ∀ j < n, dist2 i j = ∑ d ∈ range D, (x (i * D + d) - x (j * D + d)) ^ 2)
    (hdist : ∀ i < n, ∀ j < n, i ≠ j → ∃ d < D, x (i * D + d) ≠ x (j * D + d)) : Definite M := by
  obtain ⟨hr, hc, hv⟩ := h
  obtain ⟨m, h1, h2⟩ := C88_kernel_value n n D ⟨[n, D], x⟩ ⟨[n, D], x⟩ rfl rfl sigma len hl
  obtain ⟨m', h1', hpos⟩ := C188_definite n D ⟨[n, D], x⟩ rfl sigma len hs hl hdist
  obtain rfl : m = m' := by
    rw [h1] at h1'
    simpa using h1'
  have e : ∀ i < n, ∀ j < n, M.at' i j = m i j := by
    intro i hi j hj
    rw [hv i hi j hj, h2, Gps.dist, Real.sq_sqrt (Finset.sum_nonneg fun _ _ => sq_nonneg _), hx i hi j hj]
    rfl
  refine ⟨by rw [hc, hr], ?_, ?_⟩
  · rw [hr]
    intro i hi j hj
    rw [hv i hi j hj, hv j hj i hi, hx i hi j hj, hx j hj i hi]
    congr 4
    exact Finset.sum_congr rfl fun d _ => by ring
  · rw [hr]
    intro c hc0
    have := hpos c hc0
    rwa [Finset.sum_congr rfl fun i hi => Finset.sum_congr rfl fun j hj => by
      rw [e i (Finset.mem_range.1 hi) j (Finset.mem_range.1 hj)]]

private theorem jitter_definite (M M' : Mat ℝ) (eps : ℝ) (heps : 0 < eps) (h : Semidefinite M) (hj : jittered eps M = .ok M') :
    Definite M' := by
  obtain ⟨hsq, hsym, hpos⟩ := h
  unfold jittered at hj
  rw [if_pos hsq.symm] at hj
  cases hj
  refine ⟨hsq, fun i hi j hj => ?_, fun c ⟨i0, hi0, hc0⟩ => ?_⟩
  · dsimp only
    rw [hsym i hi j hj]
    simp only [eq_comm]
  · dsimp only at hi0 ⊢
    have e : ∑ i ∈ range M.rows, ∑ j ∈ range M.rows, c i * (M.at' i j + (if i = j then eps else 0)) * c j =
        (∑ i ∈ range M.rows, ∑ j ∈ range M.rows, c i * M.at' i j * c j) + ∑ i ∈ range M.rows, eps * c i ^ 2 := by
      rw [← Finset.sum_add_distrib]
      refine Finset.sum_congr rfl fun i hi => ?_
      have : ∀ j ∈ range M.rows, c i * (M.at' i j + (if i = j then eps else 0)) * c j =
          c i * M.at' i j * c j + if i = j then eps * c i ^ 2 else 0 := by
        intro j _
        by_cases hij : i = j
        · subst hij; simp only [if_true]; ring
        · simp only [if_neg hij]; ring
      rw [Finset.sum_congr rfl this, Finset.sum_add_distrib, Finset.sum_ite_eq, if_pos hi]
    rw [e]
    have : 0 < ∑ i ∈ range M.rows, eps * c i ^ 2 :=
      Finset.sum_pos' (fun _ _ => by positivity) ⟨i0, Finset.mem_range.2 hi0, by positivity⟩
    have := hpos c
    linarith

/-! ### The property -/

/-- **C188** Distinct times, channels and directions: whenever the factorisation accepts positive definite matrices, the example
program succeeds and the gains have the stated covariance. -/
theorem C188_gains (chol : Mat ℝ → Except PyErr (Mat ℝ)) (hchol : ∀ M L, chol M = .ok L → IsFactor L M)
    (hpd : ∀ M, Definite M → ∃ L, chol M = .ok L) (eps : ℝ) (times freqs : List ℝ) (ndir : Nat) (lm : Nat → ℝ) (st sf : ℝ)
    (ht : IsSpan times st) (hf : IsSpan freqs sf) (hst : st ≠ 0) (hsf : sf ≠ 0) (hd : 0 < ndir)
    (hsize : ¬ (times.length = freqs.length ∧ freqs.length = ndir)) (ndt : times.Nodup) (ndf : freqs.Nodup)
    (ndl : ∀ i < ndir, ∀ j < ndir, i ≠ j → (lm (i * 2), lm (i * 2 + 1)) ≠ (lm (j * 2), lm (j * 2 + 1))) :
    ∃ c : Nat → Nat → Nat → Nat → ℝ,
      (∀ xi, ∃ g, phaseGains chol eps times freqs ndir lm xi = .ok g ∧
        ∀ t < times.length, ∀ f < freqs.length, ∀ d < ndir, ‖g t f d‖ = 1 ∧
          g t f d = Complex.exp (Complex.I * (∑ k ∈ range (times.length * freqs.length * ndir), c t f d k * xi k : ℝ))) ∧
      ∀ t < times.length, ∀ f < freqs.length, ∀ d < ndir, ∀ t' < times.length, ∀ f' < freqs.length, ∀ d' < ndir,
        ∑ k ∈ range (times.length * freqs.length * ndir), c t f d k * c t' f' d' k =
          1 / 16 * Real.exp (-apart times st t t' / (2 * (1 / 5) ^ 2)) *
            Real.exp (-apart freqs sf f f' / (2 * (1 / 4) ^ 2)) * Real.exp (-apartLm lm d d' / (2 * (1 / 2) ^ 2)) := by
  have line : ∀ (x : List ℝ) (s sigma len : ℝ), x.Nodup → s ≠ 0 → sigma ≠ 0 → len ≠ 0 →
      ∀ M, Holds M x.length (sigma ^ 2) len (apart x s) → Definite M := by
    intro x s sigma len hnd hs hsig hlen M hM
    refine definite_of_points M x.length 1 sigma len hsig hlen _ hM (fun i => x.getD i 0 / s) ?_ ?_
    · intro i _ j _
      simp only [Finset.sum_range_one, mul_one, add_zero, apart]
      ring
    · intro i hi j hj hne
      refine ⟨0, by norm_num, fun e => hne ?_⟩
      simp only [mul_one, add_zero] at e
      have e' : x.getD i 0 = x.getD j 0 := by
        field_simp at e
        exact e
      rw [List.getD_eq_getElem _ _ hi, List.getD_eq_getElem _ _ hj] at e'
      exact (List.Nodup.getElem_inj_iff hnd).1 e'
  refine C163_partial chol hchol eps times freqs ndir lm st sf ht hf hst hsf hd hsize (fun M hM => hpd M ?_)
    (fun M hM => hpd M ?_) fun M hM => hpd M ?_
  · exact line times st (1 / 4) (1 / 5) ndt hst (by norm_num) (by norm_num) M (by
      rw [show ((1 : ℝ) / 4) ^ 2 = 1 / 16 by norm_num]; exact hM)
  · exact line freqs sf 1 (1 / 4) ndf hsf (by norm_num) (by norm_num) M (by rw [one_pow]; exact hM)
  · refine definite_of_points M ndir 2 1 (1 / 2) (by norm_num) (by norm_num) _ (by rw [one_pow]; exact hM) lm ?_ ?_
    · intro i _ j _
      simp [Finset.sum_range_succ, apartLm]
    · intro i hi j hj hne
      have := ndl i hi j hj hne
      by_cases h0 : lm (i * 2) = lm (j * 2)
      · refine ⟨1, by norm_num, fun h1 => this (by rw [h0, h1])⟩
      · exact ⟨0, by norm_num, h0⟩

/-- **C188** With the jitter on the diagonal, `kron_cholesky` fails for no list of covariances, whether points coincide or not. -/
theorem C188_jitter (chol : Mat ℝ → Except PyErr (Mat ℝ)) (hpd : ∀ M, Definite M → ∃ L, chol M = .ok L) (eps : ℝ)
    (heps : 0 < eps) (A : List (Mat ℝ)) (hA : ∀ M ∈ A, Semidefinite M) : ∃ L, kronCholesky chol eps A = .ok L := by
  induction A with
  | nil => exact ⟨[], rfl⟩
  | cons M Ms ih =>
    obtain ⟨Ls, hLs⟩ := ih fun M' hM' => hA M' (List.mem_cons_of_mem _ hM')
    have hM := hA M (by simp)
    obtain ⟨l, hl⟩ : ∃ l, cholFactor chol eps M = .ok l := by
      unfold cholFactor
      cases hc : chol M with
      | ok l => exact ⟨l, rfl⟩
      | error e =>
        have hj : jittered eps M = .ok ⟨M.rows, M.cols, fun i j => M.at' i j + (if i = j then eps else 0)⟩ := by
          unfold jittered
          rw [if_pos hM.1.symm]
        dsimp only
        rw [hj]
        exact hpd _ (jitter_definite M _ eps heps hM hj)
    exact ⟨l :: Ls, by rw [kronCholesky, hl]; dsimp only; rw [hLs]⟩

/-- **C188** Covariances of any points, equal or not, are such matrices. -/
theorem C188_covariances (N D : Nat) (x : Nd) (hx : x.dims = [N, D]) (sigmaf l : ℝ) (hl : l ≠ 0) :
    ∃ M, covariance x sigmaf l = .ok M ∧ M.rows = N ∧ Semidefinite M := by
  obtain ⟨m, h1, h2⟩ := C88_kernel_value N N D x x hx hx sigmaf l hl
  obtain ⟨m', h1', hpos⟩ := C95_positive_semidefinite N D x hx sigmaf l hl
  obtain rfl : m = m' := by
    rw [h1] at h1'
    simpa using h1'
  refine ⟨⟨N, N, m⟩, by unfold covariance; rw [h1], rfl, rfl, fun i _ j _ => ?_, hpos⟩
  dsimp only
  rw [h2, h2]
  unfold Gps.dist
  congr 5
  exact congrArg _ (Finset.sum_congr rfl fun d _ => by ring)

open scoped MatrixOrder in
/-- Some factorisation returns factors and accepts every positive definite matrix, so that the hypotheses of `C188_gains` and
`C188_jitter` on `np.linalg.cholesky` can hold. -/
theorem factorisation_exists : ∃ chol : Mat ℝ → Except PyErr (Mat ℝ), (∀ M L, chol M = .ok L → IsFactor L M) ∧
    ∀ M, Definite M → ∃ L, chol M = .ok L := by
  classical
  refine ⟨fun M => if h : ∃ L, IsFactor L M then .ok h.choose else .error .valueError, ?_, ?_⟩
  · intro M L h
    dsimp only at h
    split_ifs at h with hx
    cases h
    exact hx.choose_spec
  · intro M ⟨hsq, hsym, hpos⟩
    have key : ∃ L, IsFactor L M := by
      set A : Matrix (Fin M.rows) (Fin M.rows) ℝ := fun i j => M.at' i j with hA
      have hps : A.PosSemidef := by
        rw [Matrix.posSemidef_iff_dotProduct_mulVec]
        refine ⟨?_, fun x => ?_⟩
        · ext i j
          exact hsym j j.2 i i.2
        · set c : Nat → ℝ := fun i => if h : i < M.rows then x ⟨i, h⟩ else 0 with hc
          have e : star x ⬝ᵥ (A.mulVec x) = ∑ i ∈ range M.rows, ∑ j ∈ range M.rows, c i * M.at' i j * c j := by
            rw [Finset.sum_range]
            refine Finset.sum_congr rfl fun i _ => ?_
            rw [Finset.sum_range, Matrix.mulVec, dotProduct, Finset.mul_sum]
            refine Finset.sum_congr rfl fun j _ => ?_
            simp [hc, hA]
            ring
          rw [e]
          by_cases h0 : ∃ i < M.rows, c i ≠ 0
          · exact (hpos c h0).le
          · push Not at h0
            refine (Finset.sum_eq_zero fun i hi => Finset.sum_eq_zero fun j _ => ?_).ge
            rw [h0 i (Finset.mem_range.1 hi)]
            ring
      obtain ⟨B, hB⟩ := CStarAlgebra.nonneg_iff_eq_star_mul_self.mp hps.nonneg
      refine ⟨⟨M.rows, M.rows, fun i k => if h : i < M.rows ∧ k < M.rows then B ⟨k, h.2⟩ ⟨i, h.1⟩ else 0⟩, hsq, rfl, rfl, ?_⟩
      intro i j hi hj
      have := congrFun (congrFun hB ⟨i, hi⟩) ⟨j, hj⟩
      rw [Matrix.mul_apply] at this
      dsimp only
      rw [show M.at' i j = A ⟨i, hi⟩ ⟨j, hj⟩ from rfl, this, Finset.sum_range]
      refine Finset.sum_congr rfl fun k _ => ?_
      simp [hi, hj, Matrix.star_apply]
    exact ⟨_, dif_pos key⟩

/-- Three times, two channels and two sources meet the other hypotheses of `C188_gains`. -/
example : IsSpan [1, 2, 4] 3 ∧ IsSpan [7, 8] 1 ∧ [1, 2, (4 : ℝ)].Nodup ∧ [7, (8 : ℝ)].Nodup ∧
    ∀ i < 2, ∀ j < 2, i ≠ j → ((fun k : Nat => (k : ℝ)) (i * 2), (fun k : Nat => (k : ℝ)) (i * 2 + 1)) ≠
      ((fun k : Nat => (k : ℝ)) (j * 2), (fun k : Nat => (k : ℝ)) (j * 2 + 1)) := by
  refine ⟨⟨1, 4, by simp, by simp, by simp; norm_num, by norm_num⟩, ⟨7, 8, by simp, by simp, by simp; norm_num, by norm_num⟩,
    by norm_num, by norm_num, fun i hi j hj hne => ?_⟩
  have hi' : i = 0 ∨ i = 1 := by omega
  have hj' : j = 0 ∨ j = 1 := by omega
  rcases hi' with rfl | rfl <;> rcases hj' with rfl | rfl <;> simp at hne ⊢

end Verif.Examples
