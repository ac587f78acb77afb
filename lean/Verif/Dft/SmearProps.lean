/-
C177: how much visibilities change with the baseline, the frequency and the position of the source, and what averaging takes
from a source away from the phase centre.
-/
import Verif.Dft.SymProps
import Verif.Averaging.PropsConvex
import Mathlib.Analysis.SpecialFunctions.Complex.Circle
import Mathlib.Analysis.Real.Pi.Bounds

set_option autoImplicit false

namespace Verif.Dft

open Verif.Rime (delay)
open Finset (range)

/-! ### Specification -/

/-- The speed of light in metres per second. -/
def speedOfLight : ℝ := 299792458

/-- The third direction cosine less one. -/
noncomputable def nMinusOne (lm : ℝ × ℝ) : ℝ := Real.sqrt (1 - lm.1 ^ 2 - lm.2 ^ 2) - 1

/-- The straight distance between two points of the unit sphere with these direction cosines. -/
noncomputable def chord (lm lm' : ℝ × ℝ) : ℝ :=
  Real.sqrt ((lm.1 - lm'.1) ^ 2 + (lm.2 - lm'.2) ^ 2 + (nMinusOne lm - nMinusOne lm') ^ 2)

/-- The distance between the ends of two baselines that start at the same point. -/
noncomputable def apart (b b' : ℝ × ℝ × ℝ) : ℝ :=
  Real.sqrt ((b.1 - b'.1) ^ 2 + (b.2.1 - b'.2.1) ^ 2 + (b.2.2 - b'.2.2) ^ 2)

/-- The phase of a source on a baseline, in turns of `2 pi`. -/
noncomputable def turns (lm : ℝ × ℝ) (b : ℝ × ℝ × ℝ) (nu : ℝ) : ℝ :=
  (b.1 * lm.1 + b.2.1 * lm.2 + b.2.2 * nMinusOne lm) * nu / speedOfLight

/-! ### Lemmas -/

private theorem exp_sub (x y : ℝ) : ‖Complex.exp (Complex.I * x) - Complex.exp (Complex.I * y)‖ ≤ |x - y| := by
  have h : Complex.exp (Complex.I * x) - Complex.exp (Complex.I * y) =
      Complex.exp (Complex.I * y) * (Complex.exp (Complex.I * ((x - y : ℝ) : ℂ)) - 1) := by
    rw [mul_sub, ← Complex.exp_add, mul_one]
    congr 2
    push_cast
    ring
  rw [h, norm_mul, mul_comm Complex.I (y : ℂ), Complex.norm_exp_ofReal_mul_I, one_mul]
  exact Real.norm_exp_I_mul_ofReal_sub_one_le

private theorem delay_turns (sg : ℝ) (lm : ℝ × ℝ) (b : ℝ × ℝ × ℝ) (nu : ℝ) :
    delay sg lm.1 lm.2 b.1 b.2.1 b.2.2 nu = Complex.exp (Complex.I * ((sg * (2 * Real.pi * turns lm b nu) : ℝ) : ℂ)) := by
  unfold delay turns nMinusOne speedOfLight
  congr 3
  ring

private theorem delay_minus (sg : ℝ) (hsg : |sg| = 1) (lm lm' : ℝ × ℝ) (b b' : ℝ × ℝ × ℝ) (nu nu' : ℝ) :
    ‖delay sg lm.1 lm.2 b.1 b.2.1 b.2.2 nu - delay sg lm'.1 lm'.2 b'.1 b'.2.1 b'.2.2 nu'‖ ≤
      2 * Real.pi * |turns lm b nu - turns lm' b' nu'| := by
  rw [delay_turns, delay_turns]
  refine (exp_sub _ _).trans (le_of_eq ?_)
  rw [← mul_sub, ← mul_sub, abs_mul, hsg, one_mul, abs_mul, abs_of_pos (by linarith [Real.pi_pos])]

private theorem cauchy3 (a b c x y z : ℝ) :
    |a * x + b * y + c * z| ≤ Real.sqrt (a ^ 2 + b ^ 2 + c ^ 2) * Real.sqrt (x ^ 2 + y ^ 2 + z ^ 2) := by
  rw [← Real.sqrt_mul (by positivity)]
  refine Real.abs_le_sqrt ?_
  nlinarith [sq_nonneg (a * y - b * x), sq_nonneg (a * z - c * x), sq_nonneg (b * z - c * y)]

private theorem nMinusOne_zero : nMinusOne (0, 0) = 0 := by simp [nMinusOne]

private theorem sg_abs {convention : String} {sg : ℝ} (h : Sign convention sg) : |sg| = 1 := by
  rcases h with ⟨-, h⟩ | ⟨-, h⟩ <;> simp [h]

private theorem turns_baseline (lm : ℝ × ℝ) (b b' : ℝ × ℝ × ℝ) (nu : ℝ) :
    |turns lm b nu - turns lm b' nu| ≤ chord lm (0, 0) * apart b b' * |nu| / speedOfLight := by
  have hc : (0 : ℝ) < speedOfLight := by norm_num [speedOfLight]
  have e : turns lm b nu - turns lm b' nu =
      (lm.1 * (b.1 - b'.1) + lm.2 * (b.2.1 - b'.2.1) + nMinusOne lm * (b.2.2 - b'.2.2)) * nu / speedOfLight := by
    unfold turns; ring
  rw [e, abs_div, abs_mul, abs_of_pos hc]
  gcongr
  have := cauchy3 lm.1 lm.2 (nMinusOne lm) (b.1 - b'.1) (b.2.1 - b'.2.1) (b.2.2 - b'.2.2)
  simpa [chord, apart, nMinusOne_zero] using this

private theorem turns_position (lm lm' : ℝ × ℝ) (b : ℝ × ℝ × ℝ) (nu : ℝ) :
    |turns lm b nu - turns lm' b nu| ≤ chord lm lm' * apart b (0, 0, 0) * |nu| / speedOfLight := by
  have hc : (0 : ℝ) < speedOfLight := by norm_num [speedOfLight]
  have e : turns lm b nu - turns lm' b nu =
      ((lm.1 - lm'.1) * b.1 + (lm.2 - lm'.2) * b.2.1 + (nMinusOne lm - nMinusOne lm') * b.2.2) * nu / speedOfLight := by
    unfold turns; ring
  rw [e, abs_div, abs_mul, abs_of_pos hc]
  gcongr
  have := cauchy3 (lm.1 - lm'.1) (lm.2 - lm'.2) (nMinusOne lm - nMinusOne lm') b.1 b.2.1 b.2.2
  simpa [chord, apart] using this

private theorem turns_frequency (lm : ℝ × ℝ) (b : ℝ × ℝ × ℝ) (nu nu' : ℝ) :
    |turns lm b nu - turns lm b nu'| ≤ chord lm (0, 0) * apart b (0, 0, 0) * |nu - nu'| / speedOfLight := by
  have hc : (0 : ℝ) < speedOfLight := by norm_num [speedOfLight]
  have e : turns lm b nu - turns lm b nu' =
      (lm.1 * b.1 + lm.2 * b.2.1 + nMinusOne lm * b.2.2) * (nu - nu') / speedOfLight := by
    unfold turns; ring
  rw [e, abs_div, abs_mul, abs_of_pos hc]
  gcongr
  have := cauchy3 lm.1 lm.2 (nMinusOne lm) b.1 b.2.1 b.2.2
  simpa [chord, apart, nMinusOne_zero] using this

private theorem sum_sub_le (n : Nat) (k k' : Nat → ℂ) (x : Nat → ℂ) (B : Nat → ℝ) (h : ∀ s < n, ‖k s - k' s‖ ≤ B s) :
    ‖∑ s ∈ range n, k s * x s - ∑ s ∈ range n, k' s * x s‖ ≤ ∑ s ∈ range n, B s * ‖x s‖ := by
  rw [← Finset.sum_sub_distrib]
  refine (norm_sum_le _ _).trans (Finset.sum_le_sum fun s hs => ?_)
  rw [← sub_mul, norm_mul]
  exact mul_le_mul_of_nonneg_right (h s (Finset.mem_range.1 hs)) (norm_nonneg _)

/-! ### The property -/

/-- **C177** No visibility is larger than the sum of the moduli of the pixels, and on the zero baseline the visibility is the
sum of the pixels. -/
theorem C177_total (nrow nsrc nchan ncorr : Nat) (image : Nat → Nat → Nat → ℂ) (uvw : Nat → ℝ × ℝ × ℝ)
    (lm : Nat → ℝ × ℝ) (freq : Nat → ℝ) (convention : String) (hc : convention = "fourier" ∨ convention = "casa")
    (hlm : ∀ s < nsrc, (lm s).1 ^ 2 + (lm s).2 ^ 2 ≤ 1) :
    ∃ V, imToVis nrow nsrc nchan ncorr image uvw lm freq convention = .ok V ∧
      ∀ r < nrow, ∀ f < nchan, ∀ c < ncorr, ‖V r f c‖ ≤ ∑ s ∈ range nsrc, ‖image s f c‖ ∧
        (uvw r = (0, 0, 0) → V r f c = ∑ s ∈ range nsrc, image s f c) := by
  obtain ⟨sg, hsg⟩ : ∃ sg, Sign convention sg := by
    rcases hc with h | h
    · exact ⟨-1, Or.inl ⟨h, rfl⟩⟩
    · exact ⟨1, Or.inr ⟨h, rfl⟩⟩
  obtain ⟨V, e, h⟩ := C86_im_to_vis nrow nsrc nchan ncorr image uvw lm freq convention sg hsg hlm
  refine ⟨V, e, fun r hr f hf c hc => ⟨?_, fun hu => ?_⟩⟩
  · rw [h r hr f hf c hc]
    refine (norm_sum_le _ _).trans (Finset.sum_le_sum fun s _ => ?_)
    rw [norm_mul, delay_turns, mul_comm Complex.I, Complex.norm_exp_ofReal_mul_I, one_mul]
  · rw [h r hr f hf c hc]
    refine Finset.sum_congr rfl fun s _ => ?_
    rw [hu]
    simp [delay]

/-- **C177** Two baselines that end close to each other see almost the same: the visibilities differ by at most `2 pi` times
their distance in wavelengths, times the distance of each source from the phase centre, times its flux. -/
theorem C177_baselines (nrow nsrc nchan ncorr : Nat) (image : Nat → Nat → Nat → ℂ) (uvw uvw' : Nat → ℝ × ℝ × ℝ)
    (lm : Nat → ℝ × ℝ) (freq : Nat → ℝ) (convention : String) (hc : convention = "fourier" ∨ convention = "casa")
    (hlm : ∀ s < nsrc, (lm s).1 ^ 2 + (lm s).2 ^ 2 ≤ 1) :
    ∃ V V', imToVis nrow nsrc nchan ncorr image uvw lm freq convention = .ok V ∧
      imToVis nrow nsrc nchan ncorr image uvw' lm freq convention = .ok V' ∧
      ∀ r < nrow, ∀ f < nchan, ∀ c < ncorr, ‖V r f c - V' r f c‖ ≤
        ∑ s ∈ range nsrc, 2 * Real.pi * (chord (lm s) (0, 0) * apart (uvw r) (uvw' r) * |freq f| / speedOfLight) *
          ‖image s f c‖ := by
  obtain ⟨sg, hsg⟩ : ∃ sg, Sign convention sg := by
    rcases hc with h | h
    · exact ⟨-1, Or.inl ⟨h, rfl⟩⟩
    · exact ⟨1, Or.inr ⟨h, rfl⟩⟩
  obtain ⟨V, e, h⟩ := C86_im_to_vis nrow nsrc nchan ncorr image uvw lm freq convention sg hsg hlm
  obtain ⟨V', e', h'⟩ := C86_im_to_vis nrow nsrc nchan ncorr image uvw' lm freq convention sg hsg hlm
  refine ⟨V, V', e, e', fun r hr f hf c hc => ?_⟩
  rw [h r hr f hf c hc, h' r hr f hf c hc]
  refine sum_sub_le nsrc _ _ _ _ fun s _ => (delay_minus sg (sg_abs hsg) (lm s) (lm s) (uvw r) (uvw' r) _ _).trans ?_
  exact mul_le_mul_of_nonneg_left (turns_baseline _ _ _ _) (by positivity)

/-- **C177** The same for neighbouring frequencies (bandwidth smearing): the bound has the length of the baseline and the
difference of the frequencies. -/
theorem C177_frequencies (nrow nsrc nchan ncorr : Nat) (image : Nat → Nat → Nat → ℂ) (uvw : Nat → ℝ × ℝ × ℝ)
    (lm : Nat → ℝ × ℝ) (freq freq' : Nat → ℝ) (convention : String) (hc : convention = "fourier" ∨ convention = "casa")
    (hlm : ∀ s < nsrc, (lm s).1 ^ 2 + (lm s).2 ^ 2 ≤ 1) :
    ∃ V V', imToVis nrow nsrc nchan ncorr image uvw lm freq convention = .ok V ∧
      imToVis nrow nsrc nchan ncorr image uvw lm freq' convention = .ok V' ∧
      ∀ r < nrow, ∀ f < nchan, ∀ c < ncorr, ‖V r f c - V' r f c‖ ≤
        ∑ s ∈ range nsrc, 2 * Real.pi *
          (chord (lm s) (0, 0) * apart (uvw r) (0, 0, 0) * |freq f - freq' f| / speedOfLight) * ‖image s f c‖ := by
  obtain ⟨sg, hsg⟩ : ∃ sg, Sign convention sg := by
    rcases hc with h | h
    · exact ⟨-1, Or.inl ⟨h, rfl⟩⟩
    · exact ⟨1, Or.inr ⟨h, rfl⟩⟩
  obtain ⟨V, e, h⟩ := C86_im_to_vis nrow nsrc nchan ncorr image uvw lm freq convention sg hsg hlm
  obtain ⟨V', e', h'⟩ := C86_im_to_vis nrow nsrc nchan ncorr image uvw lm freq' convention sg hsg hlm
  refine ⟨V, V', e, e', fun r hr f hf c hc => ?_⟩
  rw [h r hr f hf c hc, h' r hr f hf c hc]
  refine sum_sub_le nsrc _ _ _ _ fun s _ => (delay_minus sg (sg_abs hsg) (lm s) (lm s) (uvw r) (uvw r) _ _).trans ?_
  exact mul_le_mul_of_nonneg_left (turns_frequency _ _ _ _) (by positivity)

/-- **C177** The same for sources that move (or are known with an error): the bound has the distance they move. -/
theorem C177_positions (nrow nsrc nchan ncorr : Nat) (image : Nat → Nat → Nat → ℂ) (uvw : Nat → ℝ × ℝ × ℝ)
    (lm lm' : Nat → ℝ × ℝ) (freq : Nat → ℝ) (convention : String) (hc : convention = "fourier" ∨ convention = "casa")
    (hlm : ∀ s < nsrc, (lm s).1 ^ 2 + (lm s).2 ^ 2 ≤ 1) (hlm' : ∀ s < nsrc, (lm' s).1 ^ 2 + (lm' s).2 ^ 2 ≤ 1) :
    ∃ V V', imToVis nrow nsrc nchan ncorr image uvw lm freq convention = .ok V ∧
      imToVis nrow nsrc nchan ncorr image uvw lm' freq convention = .ok V' ∧
      ∀ r < nrow, ∀ f < nchan, ∀ c < ncorr, ‖V r f c - V' r f c‖ ≤
        ∑ s ∈ range nsrc, 2 * Real.pi *
          (chord (lm s) (lm' s) * apart (uvw r) (0, 0, 0) * |freq f| / speedOfLight) * ‖image s f c‖ := by
  obtain ⟨sg, hsg⟩ : ∃ sg, Sign convention sg := by
    rcases hc with h | h
    · exact ⟨-1, Or.inl ⟨h, rfl⟩⟩
    · exact ⟨1, Or.inr ⟨h, rfl⟩⟩
  obtain ⟨V, e, h⟩ := C86_im_to_vis nrow nsrc nchan ncorr image uvw lm freq convention sg hsg hlm
  obtain ⟨V', e', h'⟩ := C86_im_to_vis nrow nsrc nchan ncorr image uvw lm' freq convention sg hsg hlm'
  refine ⟨V, V', e, e', fun r hr f hf c hc => ?_⟩
  rw [h r hr f hf c hc, h' r hr f hf c hc]
  refine sum_sub_le nsrc _ _ _ _ fun s _ => (delay_minus sg (sg_abs hsg) (lm s) (lm' s) (uvw r) (uvw r) _ _).trans ?_
  exact mul_le_mul_of_nonneg_left (turns_position _ _ _ _) (by positivity)

/-- A unit number turned by at most `D`, seen along the direction it is turned from. -/
private theorem turned_re {x y D : ℝ} (h : |x - y| ≤ D) (hD : D ≤ Real.pi) :
    Real.cos D ≤ (star (Complex.exp (Complex.I * y)) * Complex.exp (Complex.I * x)).re := by
  have e : star (Complex.exp (Complex.I * y)) * Complex.exp (Complex.I * x) = Complex.exp (((x - y : ℝ) : ℂ) * Complex.I) := by
    rw [Complex.star_def, ← Complex.exp_conj, map_mul, Complex.conj_I, Complex.conj_ofReal, ← Complex.exp_add]
    congr 1
    push_cast
    ring
  rw [e, Complex.exp_ofReal_mul_I_re, ← Real.cos_abs (x - y)]
  exact Real.cos_le_cos_of_nonneg_of_le_pi (abs_nonneg _) hD h

/-- **C177** What averaging takes from a point source of flux `A` that `im_to_vis` or `phase_delay` predicts: if the phases of
the source within the samples of an output sample differ by at most `D` from a phase `p` (in turns: `D / 2 pi`), the average
keeps at least `cos D` of the flux, differs from the sample at phase `p` by at most `A D`, and never exceeds the flux. -/
theorem C177_average (sqrt : ℂ → ℂ) (junk : Nat → Int)
    (sentinel : ℚ) (n nchan ncorr : Nat) (time interval : Nat → ℚ) (ant1 ant2 : Nat → Int)
    (flagRow : Option (Nat → Nat)) (rowCols : Averaging.RowCols ℂ)
    (chanFreq chanWidth effectiveBw resolution : Option (Nat → ℂ)) (cols : Averaging.CubeCols ℂ)
    (secs : ℚ) (bin : Nat) [DecidableEq ℂ] (out : Averaging.AverageOutput ℂ)
    (h32 : ∀ r < n, Averaging.IsInt32 (ant1 r)) (hsent : ∀ r < n, time r < sentinel)
    (h01 : Averaging.ZeroOne n flagRow) (hb : 1 ≤ bin) (v : Nat → Nat → Nat → ℂ) (hv : cols.vis = some v)
    (hpos : ∀ r < n, ∀ f < nchan, ∀ co < ncorr, ∃ x : ℝ, 0 < x ∧
      Averaging.sampleWt cols.weightSpectrum cols.weight r f co = (x : ℂ))
    (h : Averaging.timeAndChannel sqrt junk sentinel n nchan ncorr time interval ant1 ant2 flagRow rowCols
      chanFreq chanWidth effectiveBw resolution cols secs bin = .ok out)
    (o fo co : Nat) (ho : o < out.rows.outRows) (hfo : fo < out.outChans) (hco : co < ncorr)
    (A : ℝ) (hA : 0 ≤ A) (convention : String) (sg : ℝ) (hsg : Sign convention sg) (lm : ℝ × ℝ)
    (uvw : Nat → ℝ × ℝ × ℝ) (freq : Nat → ℝ)
    (hsrc : ∀ r < n, ∀ f < nchan, out.rows.map r = o → f / bin = fo →
      v r f co = A * delay sg lm.1 lm.2 (uvw r).1 (uvw r).2.1 (uvw r).2.2 (freq f))
    (p D : ℝ) (hD : D ≤ Real.pi)
    (hnear : ∀ r < n, ∀ f < nchan, out.rows.map r = o → f / bin = fo →
      2 * Real.pi * |turns lm (uvw r) (freq f) - p| ≤ D) :
    ∃ x, out.cubeData.vis = some x ∧ A * Real.cos D ≤ ‖x o fo co‖ ∧ ‖x o fo co‖ ≤ A ∧
      ‖x o fo co - A * Complex.exp (Complex.I * ((sg * (2 * Real.pi * p) : ℝ) : ℂ))‖ ≤ A * D := by
  set u : ℂ := Complex.exp (Complex.I * ((sg * (2 * Real.pi * p) : ℝ) : ℂ)) with hu
  have hun : ‖u‖ = 1 := by rw [hu, mul_comm Complex.I, Complex.norm_exp_ofReal_mul_I]
  have hph : ∀ r < n, ∀ f < nchan, out.rows.map r = o → f / bin = fo →
      |sg * (2 * Real.pi * turns lm (uvw r) (freq f)) - sg * (2 * Real.pi * p)| ≤ D := by
    intro r hr f hf h1 h2
    rw [← mul_sub, ← mul_sub, abs_mul, sg_abs hsg, one_mul, abs_mul, abs_of_pos (by linarith [Real.pi_pos])]
    exact hnear r hr f hf h1 h2
  have hconv : Convex ℝ ({z : ℂ | A * Real.cos D ≤ (star u * z).re} ∩ Metric.closedBall 0 A ∩ Metric.closedBall (A * u) (A * D)) := by
    refine (Convex.inter ?_ (convex_closedBall _ _)).inter (convex_closedBall _ _)
    have : IsLinearMap ℝ fun z : ℂ => (star u * z).re := by
      constructor
      · intro a b; rw [mul_add, Complex.add_re]
      · intro a b; rw [Complex.real_smul, mul_left_comm, Complex.re_ofReal_mul, smul_eq_mul]
    exact convex_halfSpace_ge this _
  obtain ⟨x, hx, ⟨hx1, hx2⟩, hx3⟩ := Averaging.C169_convex sqrt junk sentinel n nchan ncorr time interval ant1 ant2 flagRow rowCols
    chanFreq chanWidth effectiveBw resolution cols secs bin out h32 hsent h01 hb v hv hpos h o fo co ho hfo hco _ hconv
    (fun r hr f hf h1 h2 => by
      rw [hsrc r hr f hf h1 h2, delay_turns]
      have hp := hph r hr f hf h1 h2
      refine ⟨⟨?_, ?_⟩, ?_⟩
      · show A * Real.cos D ≤ (star u * (A * _)).re
        rw [mul_left_comm, Complex.re_ofReal_mul]
        exact mul_le_mul_of_nonneg_left (turned_re hp hD) hA
      · rw [mem_closedBall_zero_iff, norm_mul, mul_comm Complex.I, Complex.norm_exp_ofReal_mul_I, mul_one, Complex.norm_real,
          Real.norm_of_nonneg hA]
      · rw [mem_closedBall_iff_norm, ← mul_sub, norm_mul, Complex.norm_real, Real.norm_of_nonneg hA]
        exact mul_le_mul_of_nonneg_left ((exp_sub _ _).trans hp) hA)
  refine ⟨x, hx, ?_, mem_closedBall_zero_iff.1 hx2, mem_closedBall_iff_norm.1 hx3⟩
  refine le_trans hx1 ((Complex.re_le_norm _).trans ?_)
  rw [norm_mul, norm_star, hun, one_mul]

/-- Non-vacuity: a call with one row and two channels of a source off the phase centre, averaged into one sample; the phases
differ by less than a sixth of a turn. -/
example [DecidableEq ℂ] (sqrt : ℂ → ℂ) : ∃ out : Averaging.AverageOutput ℂ,
    Averaging.timeAndChannel sqrt (fun _ => 0) 1000 1 2 1 (fun _ => 0) (fun _ => 1) (fun _ => 0) (fun _ => 1)
      none ⟨none, none, none, none, none⟩ none none none none
      ⟨none, some fun _ f _ => (3 : ℝ) * delay (-1) (1 / 10) 0 10 0 0 (speedOfLight * (1 + f / 10)), none, none, none⟩ 1 2 =
        .ok out ∧
    out.rows.outRows = 1 ∧ out.outChans = 1 ∧
    ∀ f < 2, 2 * Real.pi * |turns (1 / 10, 0) (10, 0, 0) (speedOfLight * (1 + (f : ℕ) / 10)) - 1| ≤ Real.pi / 3 := by
  obtain ⟨out, hout⟩ := (Averaging.C06_time_and_channel_outcome sqrt (fun _ => 0) 1000 1 2 1 (fun _ => 0) (fun _ => 1)
    (fun _ => 0) (fun _ => 1) none ⟨none, none, none, none, none⟩ none none none none
    ⟨none, some fun _ f _ => (3 : ℝ) * delay (-1) (1 / 10) 0 10 0 0 (speedOfLight * (1 + f / 10)), none, none, none⟩ 1 2
    (fun _ _ => by unfold Averaging.IsInt32; norm_num) (fun _ _ => by norm_num) (by intro f h; cases h) (by norm_num) _ Iff.rfl).1
    ⟨by intro r hr r' hr'; intros; omega, by intro _ _ h; cases h⟩
  have hrm : (match Averaging.rowMapper 1000 1 (fun _ => 0) (fun _ => 1) (fun _ => 0) (fun _ => 1) none 1 with
      | .error _ => 0
      | .ok rm => rm.outRows) = 1 := by decide +kernel
  have hrow : out.rows.outRows = 1 ∧ out.outChans = 1 := by
    have h := hout
    unfold Averaging.timeAndChannel at h
    rw [show Averaging.mergeFlags 1 2 1 none none = .ok none from rfl] at h
    dsimp only at h
    split at h
    · cases h
    · rename_i rm e
      rw [e] at hrm
      split at h
      · cases h
      · cases h
        exact ⟨hrm, show (Averaging.channelMapper 2 2).2 = 1 by decide +kernel⟩
  refine ⟨out, hout, hrow.1, hrow.2, fun f hf => ?_⟩
  have hc : speedOfLight ≠ 0 := by norm_num [speedOfLight]
  have e : turns (1 / 10, 0) (10, 0, 0) (speedOfLight * (1 + (f : ℕ) / 10)) - 1 = (f : ℝ) / 10 := by
    unfold turns
    field_simp
    ring
  have hf' : (f : ℝ) ≤ 1 := by exact_mod_cast (by omega : f ≤ 1)
  rw [e, abs_of_nonneg (by positivity)]
  have := Real.pi_pos
  nlinarith

end Verif.Dft
