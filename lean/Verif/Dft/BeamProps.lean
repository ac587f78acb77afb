/-
C187: dirty images are convolutions with the dirty beam.
-/
import Verif.Dft.Props
import Mathlib.Algebra.Field.GeomSum
import Mathlib.Tactic.IntervalCases
import Mathlib.Analysis.SpecialFunctions.Complex.Log

set_option autoImplicit false

namespace Verif.Dft

open Finset
open Verif.Rime (delay)

/-! ### Specification -/

open Classical in
/-- The dirty beam at the offset `(l, m)`: the unflagged baselines of a channel, each with the cosine of its phase there. -/
noncomputable def dirtyBeam (nrow ncorr : Nat) (uvw : Nat → ℝ × ℝ × ℝ) (f : ℝ) (flags : Nat → Nat → Nat → Bool) (nu : Nat) (l m : ℝ) : ℝ :=
  ∑ r ∈ range nrow, if Unflagged ncorr flags r nu then
    Real.cos (2 * Real.pi * ((uvw r).1 * l + (uvw r).2.1 * m) * f / 299792458) else 0

open Classical in
/-- The number of unflagged baselines of a channel. -/
noncomputable def goodRows (nrow ncorr : Nat) (flags : Nat → Nat → Nat → Bool) (nu : Nat) : Nat :=
  ((range nrow).filter fun r => Unflagged ncorr flags r nu).card

/-! ### Lemmas -/

private theorem delay_flat (s l m u v f : ℝ) :
    delay s l m u v 0 f = Complex.exp (((s * (2 * Real.pi * (u * l + v * m) * f / 299792458) : ℝ) : ℂ) * Complex.I) := by
  rw [delay, zero_mul, add_zero, mul_comm]

private theorem delay_pair (sg l m l' m' u v f : ℝ) (hsg : sg = 1 ∨ sg = -1) (x : ℝ) :
    (delay (-sg) l m u v 0 f * (delay sg l' m' u v 0 f * (x : ℂ))).re =
      x * Real.cos (2 * Real.pi * (u * (l - l') + v * (m - m')) * f / 299792458) := by
  rw [delay_flat, delay_flat, ← mul_assoc, ← Complex.exp_add, ← add_mul, ← Complex.ofReal_add, Complex.re_mul_ofReal,
    Complex.exp_ofReal_mul_I_re, mul_comm]
  congr 1
  rcases hsg with rfl | rfl
  · rw [← Real.cos_neg]
    congr 1
    ring
  · congr 1
    ring

theorem roots (N : Nat) (hN : 0 < N) (k : ℤ) :
    ∑ a ∈ range N, Complex.exp (((2 * Real.pi * (a * k / N) : ℝ) : ℂ) * Complex.I) = if (N : ℤ) ∣ k then (N : ℂ) else 0 := by
  have hN' : (N : ℂ) ≠ 0 := by exact_mod_cast hN.ne'
  set w := Complex.exp (((2 * Real.pi * (k / N) : ℝ) : ℂ) * Complex.I) with hw
  have hp : ∀ a ∈ range N, Complex.exp (((2 * Real.pi * (a * k / N) : ℝ) : ℂ) * Complex.I) = w ^ a := by
    intro a _
    rw [hw, ← Complex.exp_nat_mul]
    congr 1
    push_cast
    ring
  rw [sum_congr rfl hp]
  have h1 : w = 1 ↔ (N : ℤ) ∣ k := by
    rw [hw, Complex.exp_eq_one_iff]
    constructor
    · rintro ⟨n, hn⟩
      refine ⟨n, ?_⟩
      have hpi : (2 * Real.pi * Complex.I : ℂ) ≠ 0 := Complex.two_pi_I_ne_zero
      have : (k : ℂ) / N = n := by
        apply mul_right_cancel₀ hpi
        rw [← hn]
        push_cast
        ring
      rw [div_eq_iff hN'] at this
      have : (k : ℂ) = ((N * n : ℤ) : ℂ) := by rw [this]; push_cast; ring
      exact_mod_cast this
    · rintro ⟨n, rfl⟩
      refine ⟨n, ?_⟩
      push_cast
      field_simp
  split_ifs with h
  · rw [h1.2 h]
    simp
  · rw [geom_sum_eq (fun e => h (h1.1 e))]
    have : w ^ N = 1 := by
      rw [hw, ← Complex.exp_nat_mul, Complex.exp_eq_one_iff]
      refine ⟨k, ?_⟩
      push_cast
      field_simp
    rw [this, sub_self, zero_div]

private theorem near (N a b : Nat) (ha : a < N) (hb : b < N) : (N : ℤ) ∣ ((a : ℤ) - (b : ℤ)) ↔ b = a := by
  constructor
  · intro h
    have := Int.eq_zero_of_abs_lt_dvd h (by rw [abs_lt]; omega)
    omega
  · rintro rfl
    simp

private theorem pix (N : Nat) (hN : 0 < N) (lm : Nat → ℝ × ℝ) (cell l0 m0 : ℝ)
    (hpix : ∀ y < N, ∀ x < N, lm (y * N + x) = (l0 + x * cell, m0 + y * cell)) (s : Nat) (hs : s < N * N) :
    lm s = (l0 + ((s % N : Nat) : ℝ) * cell, m0 + ((s / N : Nat) : ℝ) * cell) := by
  have h := hpix (s / N) (Nat.div_lt_of_lt_mul hs) (s % N) (Nat.mod_lt _ hN)
  rwa [Nat.div_add_mod'] at h

private theorem rows (n m : Nat) (g : Nat → ℝ) : ∑ r ∈ range (n * m), g r = ∑ b ∈ range n, ∑ a ∈ range m, g (b * m + a) := by
  induction n with
  | zero => simp
  | succ n ih => rw [Nat.succ_mul, sum_range_add, ih, sum_range_succ]

private theorem beam_grid (N ncorr : Nat) (hN : 0 < N) (uvw : Nat → ℝ × ℝ × ℝ) (cell f : ℝ) (hcell : cell ≠ 0) (hf : f ≠ 0)
    (flags : Nat → Nat → Nat → Bool) (nu : Nat) (hun : ∀ r < N * N, Unflagged ncorr flags r nu)
    (hrow : ∀ b < N, ∀ a < N, uvw (b * N + a) = (a * 299792458 / (f * N * cell), b * 299792458 / (f * N * cell), 0))
    (i j : ℤ) (l m : ℝ) (hl : l = i * cell) (hm : m = j * cell) :
    dirtyBeam (N * N) ncorr uvw f flags nu l m = if (N : ℤ) ∣ i ∧ (N : ℤ) ∣ j then (N * N : ℝ) else 0 := by
  have hN' : (N : ℝ) ≠ 0 := by exact_mod_cast hN.ne'
  unfold dirtyBeam
  rw [rows]
  have hcell' : ∀ b ∈ range N, ∀ a ∈ range N, (open Classical in if Unflagged ncorr flags (b * N + a) nu then
      Real.cos (2 * Real.pi * ((uvw (b * N + a)).1 * l + (uvw (b * N + a)).2.1 * m) * f / 299792458) else 0) =
      (Complex.exp (((2 * Real.pi * (b * j / N) : ℝ) : ℂ) * Complex.I) *
        Complex.exp (((2 * Real.pi * (a * i / N) : ℝ) : ℂ) * Complex.I)).re := by
    intro b hb a ha
    rw [mem_range] at hb ha
    have hr : b * N + a < N * N := by nlinarith
    rw [if_pos (hun _ hr), hrow b hb a ha, ← Complex.exp_add, ← add_mul, ← Complex.ofReal_add, Complex.exp_ofReal_mul_I_re, hl, hm]
    congr 1
    field_simp
    ring
  rw [sum_congr rfl fun b hb => sum_congr rfl (hcell' b hb)]
  simp only [← Complex.re_sum]
  rw [← sum_mul_sum, roots N hN, roots N hN]
  by_cases h1 : (N : ℤ) ∣ i <;> by_cases h2 : (N : ℤ) ∣ j <;> simp [h1, h2]

/-! ### The property -/

/-- **C187** Without `w`, `vis_to_im` of the visibilities that `im_to_vis` gives for an image is the sum over the sources of their
brightness times the dirty beam at the offset from the source. -/
theorem C187_convolution (nrow nsrc nchan ncorr : Nat) (image : Nat → Nat → Nat → ℝ) (uvw : Nat → ℝ × ℝ × ℝ)
    (hflat : ∀ r < nrow, (uvw r).2.2 = 0) (lm : Nat → ℝ × ℝ) (freq : Nat → ℝ) (flags : Nat → Nat → Nat → Bool)
    (convention : String) (hc : convention = "fourier" ∨ convention = "casa")
    (hlm : ∀ s < nsrc, (lm s).1 ^ 2 + (lm s).2 ^ 2 ≤ 1) :
    ∃ V D, imToVis nrow nsrc nchan ncorr (fun s nu c => image s nu c) uvw lm freq convention = .ok V ∧
      visToIm nrow nsrc nchan ncorr V uvw lm freq flags convention = .ok D ∧
      ∀ s < nsrc, ∀ nu < nchan, ∀ c < ncorr, D s nu c = ∑ s' ∈ range nsrc, image s' nu c *
        dirtyBeam nrow ncorr uvw (freq nu) flags nu ((lm s).1 - (lm s').1) ((lm s).2 - (lm s').2) := by
  obtain ⟨sg, hsg, hsg'⟩ : ∃ sg, Sign convention sg ∧ (sg = 1 ∨ sg = -1) := by
    rcases hc with h | h
    · exact ⟨-1, Or.inl ⟨h, rfl⟩, Or.inr rfl⟩
    · exact ⟨1, Or.inr ⟨h, rfl⟩, Or.inl rfl⟩
  obtain ⟨V, hV, eV⟩ := C86_im_to_vis nrow nsrc nchan ncorr (fun s nu c => (image s nu c : ℂ)) uvw lm freq convention sg hsg hlm
  obtain ⟨D, hD, eD⟩ := C86_vis_to_im nrow nsrc nchan ncorr V uvw lm freq flags convention sg hsg hlm
  refine ⟨V, D, hV, hD, fun s hs nu hnu c hcc => ?_⟩
  rw [eD s hs nu hnu c hcc]
  unfold dirtyBeam
  simp only [mul_sum]
  rw [sum_comm]
  refine sum_congr rfl fun r hr => ?_
  rw [mem_range] at hr
  split_ifs with hu
  · rw [eV r hr nu hnu c hcc, hflat r hr, mul_sum, Complex.re_sum]
    exact sum_congr rfl fun s' _ => delay_pair sg _ _ _ _ _ _ _ hsg' _
  · simp

/-- **C187** The dirty beam at the position of a source is what `vis_to_im` gives there for unit visibilities. -/
theorem C187_beam (nrow nsrc nchan ncorr : Nat) (uvw : Nat → ℝ × ℝ × ℝ) (hflat : ∀ r < nrow, (uvw r).2.2 = 0) (lm : Nat → ℝ × ℝ)
    (freq : Nat → ℝ) (flags : Nat → Nat → Nat → Bool) (convention : String)
    (hc : convention = "fourier" ∨ convention = "casa") (hlm : ∀ s < nsrc, (lm s).1 ^ 2 + (lm s).2 ^ 2 ≤ 1) :
    ∃ D, visToIm nrow nsrc nchan ncorr (fun _ _ _ => 1) uvw lm freq flags convention = .ok D ∧
      ∀ s < nsrc, ∀ nu < nchan, ∀ c < ncorr, D s nu c = dirtyBeam nrow ncorr uvw (freq nu) flags nu (lm s).1 (lm s).2 := by
  obtain ⟨sg, hsg, hsg'⟩ : ∃ sg, Sign convention sg ∧ (sg = 1 ∨ sg = -1) := by
    rcases hc with h | h
    · exact ⟨-1, Or.inl ⟨h, rfl⟩, Or.inr rfl⟩
    · exact ⟨1, Or.inr ⟨h, rfl⟩, Or.inl rfl⟩
  obtain ⟨D, hD, eD⟩ := C86_vis_to_im nrow nsrc nchan ncorr (fun _ _ _ => 1) uvw lm freq flags convention sg hsg hlm
  refine ⟨D, hD, fun s hs nu hnu c hcc => ?_⟩
  rw [eD s hs nu hnu c hcc]
  unfold dirtyBeam
  refine sum_congr rfl fun r hr => ?_
  split_ifs with hu
  · have h := delay_pair sg (lm s).1 (lm s).2 0 0 (uvw r).1 (uvw r).2.1 (freq nu) hsg' 1
    have h0 : delay sg 0 0 (uvw r).1 (uvw r).2.1 0 (freq nu) = 1 := by rw [delay_flat]; simp
    rw [h0, sub_zero, sub_zero, one_mul, one_mul, Complex.ofReal_one] at h
    rw [hflat r (mem_range.1 hr), h]
  · rfl

open Classical in
/-- **C187** The dirty beam is largest at its centre, where it is the number of unflagged baselines, and symmetric. -/
theorem C187_peak (nrow ncorr : Nat) (uvw : Nat → ℝ × ℝ × ℝ) (f : ℝ) (flags : Nat → Nat → Nat → Bool) (nu : Nat) (l m : ℝ) :
    dirtyBeam nrow ncorr uvw f flags nu 0 0 = goodRows nrow ncorr flags nu ∧
    |dirtyBeam nrow ncorr uvw f flags nu l m| ≤ dirtyBeam nrow ncorr uvw f flags nu 0 0 ∧
    dirtyBeam nrow ncorr uvw f flags nu (-l) (-m) = dirtyBeam nrow ncorr uvw f flags nu l m := by
  have h0 : dirtyBeam nrow ncorr uvw f flags nu 0 0 = ∑ r ∈ range nrow, if Unflagged ncorr flags r nu then (1 : ℝ) else 0 := by
    unfold dirtyBeam
    simp
  refine ⟨?_, ?_, ?_⟩
  · rw [h0, goodRows, card_filter]
    push_cast
    rfl
  · rw [h0]
    unfold dirtyBeam
    refine (abs_sum_le_sum_abs _ _).trans (sum_le_sum fun r _ => ?_)
    split_ifs
    · exact Real.abs_cos_le_one _
    · simp
  · unfold dirtyBeam
    refine sum_congr rfl fun r _ => ?_
    rw [← Real.cos_neg]
    congr 2
    ring

/-- **C187** Baselines on a complete regular grid that matches a regular grid of `N` by `N` pixels have a dirty beam that vanishes
at all other pixels, so at that frequency `vis_to_im` after `im_to_vis` is multiplication by the number of baselines. -/
theorem C187_complete (N nchan ncorr : Nat) (hN : 0 < N) (image : Nat → Nat → Nat → ℝ) (uvw : Nat → ℝ × ℝ × ℝ)
    (lm : Nat → ℝ × ℝ) (freq : Nat → ℝ) (flags : Nat → Nat → Nat → Bool) (convention : String)
    (hc : convention = "fourier" ∨ convention = "casa") (hlm : ∀ s < N * N, (lm s).1 ^ 2 + (lm s).2 ^ 2 ≤ 1)
    (cell l0 m0 f : ℝ) (hcell : cell ≠ 0) (hf : f ≠ 0)
    (hpix : ∀ y < N, ∀ x < N, lm (y * N + x) = (l0 + x * cell, m0 + y * cell))
    (hrow : ∀ b < N, ∀ a < N, uvw (b * N + a) = (a * 299792458 / (f * N * cell), b * 299792458 / (f * N * cell), 0)) :
    ∃ V D, imToVis (N * N) (N * N) nchan ncorr (fun s nu c => image s nu c) uvw lm freq convention = .ok V ∧
      visToIm (N * N) (N * N) nchan ncorr V uvw lm freq flags convention = .ok D ∧
      ∀ s < N * N, ∀ nu < nchan, freq nu = f → (∀ r < N * N, Unflagged ncorr flags r nu) → ∀ c < ncorr,
        D s nu c = (N * N : ℝ) * image s nu c := by
  have hflat : ∀ r < N * N, (uvw r).2.2 = 0 := by
    intro r hr
    have h := hrow (r / N) (Nat.div_lt_of_lt_mul hr) (r % N) (Nat.mod_lt _ hN)
    rw [Nat.div_add_mod'] at h
    rw [h]
  obtain ⟨V, D, hV, hD, e⟩ := C187_convolution (N * N) (N * N) nchan ncorr image uvw hflat lm freq flags convention hc hlm
  refine ⟨V, D, hV, hD, fun s hs nu hnu hfr hun c hcc => ?_⟩
  rw [e s hs nu hnu c hcc, hfr]
  have hbeam : ∀ s' ∈ range (N * N), image s' nu c *
      dirtyBeam (N * N) ncorr uvw f flags nu ((lm s).1 - (lm s').1) ((lm s).2 - (lm s').2) =
      if s' = s then (N * N : ℝ) * image s' nu c else 0 := by
    intro s' hs'
    rw [mem_range] at hs'
    rw [beam_grid N ncorr hN uvw cell f hcell hf flags nu hun hrow
      ((s % N : Nat) - (s' % N : Nat) : ℤ) ((s / N : Nat) - (s' / N : Nat) : ℤ)]
    · have hx : (N : ℤ) ∣ ((s % N : Nat) - (s' % N : Nat) : ℤ) ↔ s' % N = s % N :=
        near N _ _ (Nat.mod_lt _ hN) (Nat.mod_lt _ hN)
      have hy : (N : ℤ) ∣ ((s / N : Nat) - (s' / N : Nat) : ℤ) ↔ s' / N = s / N :=
        near N _ _ (Nat.div_lt_of_lt_mul hs) (Nat.div_lt_of_lt_mul hs')
      by_cases h : s' = s
      · rw [if_pos h, if_pos ⟨hx.2 (by rw [h]), hy.2 (by rw [h])⟩, mul_comm]
      · rw [if_neg h, if_neg, mul_zero]
        rintro ⟨h1, h2⟩
        exact h (by rw [← Nat.div_add_mod s' N, ← Nat.div_add_mod s N, hx.1 h1, hy.1 h2])
    · rw [pix N hN lm cell l0 m0 hpix s hs, pix N hN lm cell l0 m0 hpix s' hs']
      simp only [Int.cast_sub, Int.cast_natCast]
      ring
    · rw [pix N hN lm cell l0 m0 hpix s hs, pix N hN lm cell l0 m0 hpix s' hs']
      simp only [Int.cast_sub, Int.cast_natCast]
      ring
  rw [sum_congr rfl hbeam, sum_ite_eq' (range (N * N)) s, if_pos (mem_range.2 hs)]

/-- A complete grid of four baselines at 1 GHz for four pixels a quarter apart: the hypotheses of `C187_complete` hold. -/
example : ∃ (uvw : Nat → ℝ × ℝ × ℝ) (lm : Nat → ℝ × ℝ), (∀ s < 2 * 2, (lm s).1 ^ 2 + (lm s).2 ^ 2 ≤ 1) ∧
    (∀ y < 2, ∀ x < 2, lm (y * 2 + x) = (0 + x * (1 / 4 : ℝ), 0 + y * (1 / 4 : ℝ))) ∧
    (∀ b < 2, ∀ a < 2, uvw (b * 2 + a) =
      ((a : ℝ) * 299792458 / ((10 : ℝ) ^ 9 * (2 : ℝ) * (1 / 4 : ℝ)), (b : ℝ) * 299792458 / ((10 : ℝ) ^ 9 * (2 : ℝ) * (1 / 4 : ℝ)), (0 : ℝ))) ∧
    (uvw 1).1 ≠ (uvw 0).1 := by
  refine ⟨fun r => (((r % 2 : Nat) : ℝ) * 299792458 / (10 ^ 9 * 2 * (1 / 4)),
    ((r / 2 : Nat) : ℝ) * 299792458 / (10 ^ 9 * 2 * (1 / 4)), 0),
    fun s => (0 + ((s % 2 : Nat) : ℝ) * (1 / 4), 0 + ((s / 2 : Nat) : ℝ) * (1 / 4)), ?_, ?_, ?_, ?_⟩
  · intro s hs
    interval_cases s <;> norm_num
  · intro y hy x hx
    interval_cases y <;> interval_cases x <;> norm_num
  · intro b hb a ha
    interval_cases b <;> interval_cases a <;> norm_num
  · norm_num

/-- Two sources and one baseline: the hypotheses of `C187_convolution` and `C187_beam` hold. -/
example : (∀ r < 1, ((fun _ => (100, 50, 0) : Nat → ℝ × ℝ × ℝ) r).2.2 = 0) ∧
    ∀ s < 2, ((fun s => ((s : ℝ) / 4, 1 / 8) : Nat → ℝ × ℝ) s).1 ^ 2 + ((fun s => ((s : ℝ) / 4, 1 / 8) : Nat → ℝ × ℝ) s).2 ^ 2 ≤ 1 := by
  refine ⟨fun _ _ => rfl, fun s hs => ?_⟩
  interval_cases s <;> norm_num

end Verif.Dft
