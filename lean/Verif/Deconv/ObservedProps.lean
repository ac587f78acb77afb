/-
C189: simulating, imaging and deconvolving fit together.
-/
import Verif.Deconv.EnergyProps
import Verif.Deconv.PointProps
import Verif.Dft.BeamProps
import Mathlib.Algebra.BigOperators.Field
import Mathlib.Analysis.Real.Pi.Bounds

set_option autoImplicit false

namespace Verif.Deconv

open Finset (range)
open Verif.Dft

/-! ### Specification -/

/-- Specification: pixel `(x, y)` of an image of `n` by `n` pixels is source `x n + y`, at the given distance from pixel
`(c, c)`, which is at `(l0, m0)`. -/
def OnGrid (n c : Nat) (lm : Nat → ℝ × ℝ) (cell l0 m0 : ℝ) : Prop :=
  ∀ x < n, ∀ y < n, lm (x * n + y) = (l0 + ((x : ℝ) - c) * cell, m0 + ((y : ℝ) - c) * cell)

/-- Specification: a channel and a correlation of the output of `vis_to_im`, as an image in units of one source. -/
noncomputable def imageOf (n : Nat) (out : Nat → Nat → Nat → ℝ) (good : Nat) (nu c x y : Nat) : ℝ := out (x * n + y) nu c / good

/-! ### Lemmas -/

private theorem pixel_sum (n m : Nat) (g : Nat → ℝ) :
    ∑ s ∈ range (n * m), g s = ∑ x ∈ range n, ∑ y ∈ range m, g (x * m + y) := by
  induction n with
  | zero => simp
  | succ n ih => rw [Nat.succ_mul, Finset.sum_range_add, ih, Finset.sum_range_succ]

private theorem pixel_lt (n x y : Nat) (hx : x < n) (hy : y < n) : x * n + y < n * n := by nlinarith

open Classical in
private theorem beam_array (nrow ncorr n : Nat) (uvw : Nat → ℝ × ℝ × ℝ) (f cell : ℝ) (flags : Nat → Nat → Nat → Bool) (nu : Nat)
    (x y : Nat) :
    dirtyBeam nrow ncorr uvw f flags nu (((x : ℝ) - ((n - 1 : Nat) : ℝ)) * cell) (((y : ℝ) - ((n - 1 : Nat) : ℝ)) * cell) /
        goodRows nrow ncorr flags nu =
      arrayPsf n nrow (fun r => if Unflagged ncorr flags r nu then 1 / (goodRows nrow ncorr flags nu : ℝ) else 0)
        (fun r => 2 * Real.pi * (uvw r).1 * cell * f / 299792458) (fun r => 2 * Real.pi * (uvw r).2.1 * cell * f / 299792458)
        x y := by
  unfold dirtyBeam arrayPsf
  rw [Finset.sum_div]
  refine Finset.sum_congr rfl fun r _ => ?_
  dsimp only
  by_cases hu : Unflagged ncorr flags r nu
  · rw [if_pos hu, if_pos hu, div_eq_mul_one_div, mul_comm]
    congr 2
    ring
  · rw [if_neg hu, if_neg hu, zero_div, zero_mul]

private theorem beam_congr {n : Nat} {psf psf' : Nat → Nat → ℝ} (hn : 0 < n) (h : Beam n psf)
    (e : ∀ x < 2 * n, ∀ y < 2 * n, psf' x y = psf x y) : Beam n psf' := by
  have hs : ∀ u, power n psf' u = power n psf u := by
    intro u
    unfold power seen
    refine Finset.sum_congr rfl fun x hx => Finset.sum_congr rfl fun y hy => ?_
    congr 1
    refine Finset.sum_congr rfl fun p hp => Finset.sum_congr rfl fun q hq => ?_
    rw [Finset.mem_range] at hx hy hp hq
    rw [e _ (by omega) _ (by omega)]
  refine ⟨?_, fun x hx y hy => ?_, fun u => by rw [hs]; exact h.power u⟩
  · rw [e _ (by omega) _ (by omega), h.centre]
  · rw [e _ (by omega) _ (by omega), e _ (by omega) _ (by omega), h.symm x hx y hy]

/-! ### The property -/

/-- **C189** An image and a psf made with `vis_to_im` from what `im_to_vis` gives for a sky: in units of the number of unflagged
baselines, the image is the sky seen through the psf, and the psf is one at pixel `(n - 1, n - 1)`, symmetric and positive
semi-definite, as CLEAN needs. -/
theorem C189_observed (n nrow nchan ncorr : Nat) (hn : 0 < n) (sky : Nat → Nat → Nat → Nat → ℝ) (uvw : Nat → ℝ × ℝ × ℝ)
    (hflat : ∀ r < nrow, (uvw r).2.2 = 0) (lm lmP : Nat → ℝ × ℝ) (cell l0 m0 : ℝ) (c0 : Nat)
    (hgrid : OnGrid n c0 lm cell l0 m0) (hgridP : OnGrid (2 * n) (n - 1) lmP cell 0 0) (freq : Nat → ℝ)
    (flags : Nat → Nat → Nat → Bool) (convention : String) (hc : convention = "fourier" ∨ convention = "casa")
    (hlm : ∀ s < n * n, (lm s).1 ^ 2 + (lm s).2 ^ 2 ≤ 1) (hlmP : ∀ s < 2 * n * (2 * n), (lmP s).1 ^ 2 + (lmP s).2 ^ 2 ≤ 1) :
    ∃ V D P, imToVis nrow (n * n) nchan ncorr (fun s nu c => (sky nu c (s / n) (s % n) : ℂ)) uvw lm freq convention = .ok V ∧
      visToIm nrow (n * n) nchan ncorr V uvw lm freq flags convention = .ok D ∧
      visToIm nrow (2 * n * (2 * n)) nchan ncorr (fun _ _ _ => 1) uvw lmP freq flags convention = .ok P ∧
      ∀ nu < nchan, ∀ c < ncorr, 0 < goodRows nrow ncorr flags nu →
        Beam n (imageOf (2 * n) P (goodRows nrow ncorr flags nu) nu c) ∧
        ∀ x < n, ∀ y < n, imageOf n D (goodRows nrow ncorr flags nu) nu c x y =
          seen n (imageOf (2 * n) P (goodRows nrow ncorr flags nu) nu c) (sky nu c) x y := by
  classical
  obtain ⟨V, D, hV, hD, eD⟩ := C187_convolution nrow (n * n) nchan ncorr (fun s nu c => sky nu c (s / n) (s % n)) uvw hflat lm freq
    flags convention hc hlm
  obtain ⟨P, hP, eP⟩ := C187_beam nrow (2 * n * (2 * n)) nchan ncorr uvw hflat lmP freq flags convention hc hlmP
  refine ⟨V, D, P, hV, hD, hP, fun nu hnu c hcc hgood => ?_⟩
  set W := goodRows nrow ncorr flags nu with hW
  have hW' : (W : ℝ) ≠ 0 := by exact_mod_cast hgood.ne'
  have hpsf : ∀ x < 2 * n, ∀ y < 2 * n, imageOf (2 * n) P W nu c x y =
      dirtyBeam nrow ncorr uvw (freq nu) flags nu (((x : ℝ) - ((n - 1 : Nat) : ℝ)) * cell)
        (((y : ℝ) - ((n - 1 : Nat) : ℝ)) * cell) / W := by
    intro x hx y hy
    unfold imageOf
    rw [eP _ (pixel_lt _ _ _ hx hy) nu hnu c hcc, hgridP x hx y hy]
    simp only [zero_add]
  refine ⟨?_, fun x hx y hy => ?_⟩
  · refine beam_congr hn (C174_array n nrow (fun r => if Unflagged ncorr flags r nu then 1 / (W : ℝ) else 0)
      (fun r => 2 * Real.pi * (uvw r).1 * cell * freq nu / 299792458)
      (fun r => 2 * Real.pi * (uvw r).2.1 * cell * freq nu / 299792458) ?_ ?_) ?_
    · intro r _
      split_ifs <;> positivity
    · rw [← Finset.sum_filter, Finset.sum_const, nsmul_eq_mul]
      rw [show (((range nrow).filter fun r => Unflagged ncorr flags r nu).card : ℝ) = W by rw [hW, goodRows]]
      field_simp
    · intro x hx y hy
      rw [hpsf x hx y hy, hW, beam_array]
  · unfold seen
    rw [imageOf, eD _ (pixel_lt _ _ _ hx hy) nu hnu c hcc, pixel_sum, Finset.sum_div]
    refine Finset.sum_congr rfl fun p hp => ?_
    rw [Finset.sum_div]
    refine Finset.sum_congr rfl fun q hq => ?_
    rw [Finset.mem_range] at hp hq
    have e1 : (p * n + q) / n = p := by
      rw [mul_comm, Nat.mul_add_div hn, Nat.div_eq_of_lt hq, Nat.add_zero]
    have e2 : (p * n + q) % n = q := by
      rw [mul_comm, Nat.mul_add_mod, Nat.mod_eq_of_lt hq]
    rw [e1, e2, hpsf _ (by omega) _ (by omega), hgrid x hx y hy, hgrid p hp q hq, mul_div_assoc]
    congr 3
    · have : ((x + (n - 1) - p : Nat) : ℝ) = x + ((n - 1 : Nat) : ℝ) - p := by
        rw [Nat.cast_sub (by omega), Nat.cast_add]
      rw [this]
      ring
    · have : ((y + (n - 1) - q : Nat) : ℝ) = y + ((n - 1 : Nat) : ℝ) - q := by
        rw [Nat.cast_sub (by omega), Nat.cast_add]
      rw [this]
      ring

/-- **C189** So CLEAN of such an image with such a psf reaches its threshold if enough rounds are allowed, and what it leaves of the
sky never has more power than the sky. -/
theorem C189_clean (n nrow nchan ncorr : Nat) (hn : 0 < n) (sky : Nat → Nat → Nat → Nat → ℝ) (uvw : Nat → ℝ × ℝ × ℝ)
    (hflat : ∀ r < nrow, (uvw r).2.2 = 0) (lm lmP : Nat → ℝ × ℝ) (cell l0 m0 : ℝ) (c0 : Nat)
    (hgrid : OnGrid n c0 lm cell l0 m0) (hgridP : OnGrid (2 * n) (n - 1) lmP cell 0 0) (freq : Nat → ℝ)
    (flags : Nat → Nat → Nat → Bool) (convention : String) (hc : convention = "fourier" ∨ convention = "casa")
    (hlm : ∀ s < n * n, (lm s).1 ^ 2 + (lm s).2 ^ 2 ≤ 1) (hlmP : ∀ s < 2 * n * (2 * n), (lmP s).1 ^ 2 + (lmP s).2 ^ 2 ≤ 1) :
    ∃ V D P, imToVis nrow (n * n) nchan ncorr (fun s nu c => (sky nu c (s / n) (s % n) : ℂ)) uvw lm freq convention = .ok V ∧
      visToIm nrow (n * n) nchan ncorr V uvw lm freq flags convention = .ok D ∧
      visToIm nrow (2 * n * (2 * n)) nchan ncorr (fun _ _ _ => 1) uvw lmP freq flags convention = .ok P ∧
      ∀ nu < nchan, ∀ c < ncorr, ∀ W, W = goodRows nrow ncorr flags nu → 0 < W → ∀ gamma : ℝ, 0 < gamma → gamma < 2 →
        ∀ t : Option ℝ, (∀ a ∈ t, 0 < a) →
        (∀ niter, ∃ clean residual, hogbomClean n n (2 * n) (2 * n) (imageOf n D W nu c) (imageOf (2 * n) P W nu c) gamma t niter =
            .ok (clean, residual) ∧
          power n (imageOf (2 * n) P W nu c) (fun x y => sky nu c x y - clean x y) ≤
            power n (imageOf (2 * n) P W nu c) (sky nu c)) ∧
        ∀ p q, IsLargestAt n n (imageOf n D W nu c) p q → imageOf n D W nu c p q ≠ 0 →
          ∃ M, ∀ niter : Nat, M ≤ niter → ∃ clean residual p' q',
            hogbomClean n n (2 * n) (2 * n) (imageOf n D W nu c) (imageOf (2 * n) P W nu c) gamma t (some (niter : Int)) =
              .ok (clean, residual) ∧
            IsLargestAt n n residual p' q' ∧ |residual p' q'| ≤ t.getD (1 / 5) * |imageOf n D W nu c p q| := by
  obtain ⟨V, D, P, hV, hD, hP, h⟩ := C189_observed n nrow nchan ncorr hn sky uvw hflat lm lmP cell l0 m0 c0 hgrid hgridP freq flags
    convention hc hlm hlmP
  refine ⟨V, D, P, hV, hD, hP, fun nu hnu c hcc W hW hpos gamma hg hg2 t ht => ?_⟩
  subst hW
  obtain ⟨hb, hd⟩ := h nu hnu c hcc hpos
  refine ⟨fun niter => C174_power n hn _ (sky nu c) _ hb hd gamma hg.le hg2.le t (fun a ha => (ht a ha).le) niter, ?_⟩
  intro p q hp h0
  have ht0 : 0 < t.getD (1 / 5) := by
    cases t with
    | none => norm_num
    | some a => exact ht a rfl
  set psf := imageOf (2 * n) P (goodRows nrow ncorr flags nu) nu c
  set dirty := imageOf n D (goodRows nrow ncorr flags nu) nu c
  set b := gamma * (2 - gamma) * (t.getD (1 / 5) * |dirty p q|) ^ 2 with hbdef
  have hbpos : 0 < b := by
    have : 0 < |dirty p q| := abs_pos.2 h0
    exact mul_pos (mul_pos hg (by linarith)) (by positivity)
  obtain ⟨M, hM⟩ := exists_nat_gt (power n psf (sky nu c) / b)
  refine ⟨M, fun niter hni => C174_threshold n hn psf (sky nu c) dirty hb hd gamma hg hg2 t ht niter p q hp h0 ?_⟩
  rw [← hbdef]
  rw [div_lt_iff₀ hbpos] at hM
  have h1 : (M : ℝ) ≤ niter + 1 := by
    have : (M : ℝ) ≤ niter := by exact_mod_cast hni
    linarith
  have := mul_le_mul_of_nonneg_right h1 hbpos.le
  linarith

/-- **C189** A single source of flux `F` at pixel `(p, q)`, observed with baselines whose psf is below one off its centre, is found at
its pixel and nowhere else, with the flux `F (1 - (1 - gamma) ^ k)` after `k` rounds. -/
theorem C189_point (n nrow nchan ncorr : Nat) (hn : 0 < n) (F : ℝ) (hF : 0 < F) (p q : Nat) (hp : p < n) (hq : q < n)
    (uvw : Nat → ℝ × ℝ × ℝ)
    (hflat : ∀ r < nrow, (uvw r).2.2 = 0) (lm lmP : Nat → ℝ × ℝ) (cell l0 m0 : ℝ) (c0 : Nat)
    (hgrid : OnGrid n c0 lm cell l0 m0) (hgridP : OnGrid (2 * n) (n - 1) lmP cell 0 0) (freq : Nat → ℝ)
    (flags : Nat → Nat → Nat → Bool) (convention : String) (hc : convention = "fourier" ∨ convention = "casa")
    (hlm : ∀ s < n * n, (lm s).1 ^ 2 + (lm s).2 ^ 2 ≤ 1) (hlmP : ∀ s < 2 * n * (2 * n), (lmP s).1 ^ 2 + (lmP s).2 ^ 2 ≤ 1) :
    ∃ V D P, imToVis nrow (n * n) nchan ncorr (fun s _ _ => if s = p * n + q then (F : ℂ) else 0) uvw lm freq convention = .ok V ∧
      visToIm nrow (n * n) nchan ncorr V uvw lm freq flags convention = .ok D ∧
      visToIm nrow (2 * n * (2 * n)) nchan ncorr (fun _ _ _ => 1) uvw lmP freq flags convention = .ok P ∧
      ∀ nu < nchan, ∀ c < ncorr, ∀ W, W = goodRows nrow ncorr flags nu → 0 < W →
        (∀ i < 2 * n, ∀ j < 2 * n, (i ≠ n - 1 ∨ j ≠ n - 1) → imageOf (2 * n) P W nu c i j < 1) →
        ∀ gamma < 1, ∀ (t : Option ℝ) (niter : Option Int), ∃ clean residual, ∃ k : Nat,
          hogbomClean n n (2 * n) (2 * n) (imageOf n D W nu c) (imageOf (2 * n) P W nu c) gamma t niter = .ok (clean, residual) ∧
          (∀ x y, clean x y = if x = p ∧ y = q then F * (1 - (1 - gamma) ^ k) else 0) ∧
          (∀ x < n, ∀ y < n, residual x y = (1 - gamma) ^ k * imageOf n D W nu c x y) ∧
          ((1 - gamma) ^ k ≤ t.getD (1 / 5) ∨ niter.getD (3 * n) + 1 ≤ (k : Int)) := by
  obtain ⟨V, D, P, hV, hD, hP, h⟩ := C189_observed n nrow nchan ncorr hn (fun _ _ x y => if x = p ∧ y = q then F else 0) uvw hflat lm
    lmP cell l0 m0 c0 hgrid hgridP freq flags convention hc hlm hlmP
  have hsame : (fun s (_ _ : Nat) => (((if s / n = p ∧ s % n = q then F else 0 : ℝ)) : ℂ)) =
      fun s _ _ => if s = p * n + q then (F : ℂ) else 0 := by
    funext s _ _
    have : (s / n = p ∧ s % n = q) ↔ s = p * n + q := by
      constructor
      · rintro ⟨rfl, rfl⟩
        exact (Nat.div_add_mod' s n).symm
      · rintro rfl
        constructor
        · rw [mul_comm, Nat.mul_add_div hn, Nat.div_eq_of_lt hq, Nat.add_zero]
        · rw [mul_comm, Nat.mul_add_mod, Nat.mod_eq_of_lt hq]
    by_cases hs : s = p * n + q
    · rw [if_pos (this.2 hs), if_pos hs]
    · rw [if_neg fun h => hs (this.1 h), if_neg hs, Complex.ofReal_zero]
  rw [hsame] at hV
  refine ⟨V, D, P, hV, hD, hP, fun nu hnu c hcc W hW hpos hpeak gamma hg t niter => ?_⟩
  subst hW
  obtain ⟨hb, hd⟩ := h nu hnu c hcc hpos
  obtain ⟨clean, residual, k, h1, h2, h3, _, _, h4⟩ := C136_point_partial n (imageOf (2 * n) P (goodRows nrow ncorr flags nu) nu c)
    ⟨hb.centre, hpeak⟩ F gamma hF hg p q hp hq (imageOf n D (goodRows nrow ncorr flags nu) nu c) (by
      intro x hx y hy
      rw [hd x hx y hy, seen, pointImage, Finset.sum_eq_single p, Finset.sum_eq_single q]
      · simp
      · intro b _ hbq; simp [hbq]
      · intro hb; exact absurd (Finset.mem_range.mpr hq) hb
      · intro a _ ha; simp [ha]
      · intro hb; exact absurd (Finset.mem_range.mpr hp) hb) t niter
  exact ⟨clean, residual, k, h1, h2, h3, h4⟩

/-- Pixels a hundredth apart meet the hypotheses on positions. -/
example : ∃ lm lmP : Nat → ℝ × ℝ, OnGrid 2 1 lm (1 / 100) 0 0 ∧ OnGrid (2 * 2) (2 - 1) lmP (1 / 100) 0 0 ∧
    (∀ s < 2 * 2, (lm s).1 ^ 2 + (lm s).2 ^ 2 ≤ 1) ∧ ∀ s < 2 * 2 * (2 * 2), (lmP s).1 ^ 2 + (lmP s).2 ^ 2 ≤ 1 := by
  refine ⟨fun s => (0 + (((s / 2 : Nat) : ℝ) - (1 : Nat)) * (1 / 100), 0 + (((s % 2 : Nat) : ℝ) - (1 : Nat)) * (1 / 100)),
    fun s => (0 + (((s / 4 : Nat) : ℝ) - (1 : Nat)) * (1 / 100), 0 + (((s % 4 : Nat) : ℝ) - (1 : Nat)) * (1 / 100)), ?_, ?_, ?_, ?_⟩
  · intro x hx y hy
    interval_cases x <;> interval_cases y <;> norm_num
  · intro x hx y hy
    interval_cases x <;> interval_cases y <;> norm_num
  · intro s hs
    interval_cases s <;> norm_num
  · intro s hs
    interval_cases s <;> norm_num

/-- One baseline whose psf is below one off its centre, as `C189_point` asks. -/
example : goodRows 1 1 (fun _ _ _ => false) 0 = 1 ∧ ∀ i : Nat, i < 4 → ∀ j : Nat, j < 4 → (i ≠ 1 ∨ j ≠ 1) →
    dirtyBeam 1 1 (fun _ => (10 / (2 * Real.pi), 40 / (2 * Real.pi), 0)) 299792458 (fun _ _ _ => false) 0
      (((i : ℝ) - 1) * (1 / 100)) (((j : ℝ) - 1) * (1 / 100)) < 1 := by
  have hu : Unflagged 1 (fun _ _ _ => false) 0 0 := fun _ _ => rfl
  refine ⟨by
    classical
    unfold goodRows
    rw [Finset.filter_true_of_mem fun r hr => by obtain rfl : r = 0 := by simpa using hr
                                                 exact hu]
    rfl, fun (i : Nat) hi (j : Nat) hj hne => ?_⟩
  unfold dirtyBeam
  rw [Finset.sum_range_one, if_pos hu]
  have e : 2 * Real.pi * (10 / (2 * Real.pi) * (((i : ℝ) - 1) * (1 / 100)) + 40 / (2 * Real.pi) * (((j : ℝ) - 1) * (1 / 100))) *
      299792458 / 299792458 = ((i : ℝ) - 1) / 10 + 4 * ((j : ℝ) - 1) / 10 := by
    have := Real.pi_ne_zero
    field_simp
    ring
  dsimp only
  rw [e]
  refine lt_of_le_of_ne (Real.cos_le_one _) fun h => ?_
  have h3 := Real.pi_gt_three
  rw [Real.cos_eq_one_iff_of_lt_of_lt] at h
  · interval_cases i <;> interval_cases j <;> first | (norm_num at h; done) | simp at hne
  · interval_cases i <;> interval_cases j <;> norm_num <;> linarith
  · interval_cases i <;> interval_cases j <;> first | (norm_num; done) | (norm_num; linarith)

end Verif.Deconv
