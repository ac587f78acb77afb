/-
C186: Gaussian shapes are the Fourier transforms of Gaussian sources.
-/
import Verif.ModelData.SpectralProps
import Mathlib.Analysis.SpecialFunctions.Gaussian.FourierTransform
import Mathlib.MeasureTheory.Measure.Lebesgue.EqHaar
import Mathlib.MeasureTheory.Integral.Prod

set_option autoImplicit false

namespace Verif.ModelData

open MeasureTheory

/-! ### Specification -/

/-- The coordinate of a point `(l, m)` of the sky along the major axis of a source, whose position angle counts from `m` towards
`l`. -/
noncomputable def alongMajor (angle : ℝ) (p : ℝ × ℝ) : ℝ := p.1 * Real.sin angle + p.2 * Real.cos angle

/-- The coordinate along the minor axis. -/
noncomputable def alongMinor (angle : ℝ) (p : ℝ × ℝ) : ℝ := p.1 * Real.cos angle - p.2 * Real.sin angle

/-- The brightness of a Gaussian source of unit flux with full widths at half maximum `emaj` and `emin`. -/
noncomputable def brightness (emaj emin angle : ℝ) (p : ℝ × ℝ) : ℝ :=
  4 * Real.log 2 / (Real.pi * emaj * emin) *
    Real.exp (-(4 * Real.log 2) * ((alongMajor angle p / emaj) ^ 2 + (alongMinor angle p / emin) ^ 2))

/-- The visibility of a distribution of brightness near the centre of the field, on a baseline of `u`, `v` metres: the integral
of the brightness with the phase of every point. -/
noncomputable def visibility (B : ℝ × ℝ → ℝ) (u v freq : ℝ) : ℂ :=
  ∫ p : ℝ × ℝ, (B p : ℂ) * Complex.exp (Complex.I * ((-(2 * Real.pi * (u * p.1 + v * p.2) * freq / 299792458) : ℝ) : ℂ))

/-! ### Lemmas -/

private noncomputable def turn (angle : ℝ) : ℝ × ℝ →ₗ[ℝ] ℝ × ℝ :=
  Matrix.toLin (Module.Basis.finTwoProd ℝ) (Module.Basis.finTwoProd ℝ)
    !![Real.sin angle, Real.cos angle; Real.cos angle, -Real.sin angle]

private theorem turn_apply (angle : ℝ) (p : ℝ × ℝ) : turn angle p = (alongMajor angle p, alongMinor angle p) := by
  rw [turn, Matrix.toLin_finTwoProd_apply]
  simp only [alongMajor, alongMinor, Prod.mk.injEq]
  constructor <;> ring

private theorem turn_det (angle : ℝ) : LinearMap.det (turn angle) = -1 := by
  rw [turn, LinearMap.det_toLin, Matrix.det_fin_two_of]
  have := Real.sin_sq_add_cos_sq angle
  linarith

private theorem turn_turn (angle : ℝ) (p : ℝ × ℝ) : turn angle (turn angle p) = p := by
  rw [turn_apply, turn_apply]
  have := Real.sin_sq_add_cos_sq angle
  ext
  · simp only [alongMajor, alongMinor]
    linear_combination p.1 * this
  · simp only [alongMajor, alongMinor]
    linear_combination p.2 * this

private theorem turn_continuous (angle : ℝ) : Continuous (turn angle) := by
  have : (turn angle : ℝ × ℝ → ℝ × ℝ) = fun p => (alongMajor angle p, alongMinor angle p) := funext (turn_apply angle)
  rw [this]
  unfold alongMajor alongMinor
  fun_prop

private theorem turn_integral (angle : ℝ) (f : ℝ × ℝ → ℂ) : ∫ p, f (turn angle p) = ∫ p, f p := by
  have hm : MeasurePreserving (turn angle) := by
    refine ⟨(turn_continuous angle).measurable, ?_⟩
    rw [Measure.map_linearMap_addHaar_eq_smul_addHaar _ (by rw [turn_det]; norm_num), turn_det]
    norm_num
  have he : MeasurableEmbedding (turn angle) :=
    (Homeomorph.mk ⟨turn angle, turn angle, turn_turn angle, turn_turn angle⟩ (turn_continuous angle)
      (turn_continuous angle)).measurableEmbedding
  exact hm.integral_comp he f

private theorem line (e k : ℝ) (he : 0 < e) :
    ∫ a : ℝ, Complex.exp (Complex.I * ((-(2 * Real.pi * k) : ℝ) : ℂ) * a) * Complex.exp (-((4 * Real.log 2 / e ^ 2 : ℝ) : ℂ) * a ^ 2) =
      ((e * Real.sqrt (Real.pi / (4 * Real.log 2)) * Real.exp (-(2 * Real.pi ^ 2 / (8 * Real.log 2) * (e * k) ^ 2)) : ℝ) : ℂ) := by
  have hl : 0 < Real.log 2 := Real.log_pos (by norm_num)
  have hb : 0 < 4 * Real.log 2 / e ^ 2 := by positivity
  rw [fourierIntegral_gaussian (by rw [Complex.ofReal_re]; exact hb)]
  have h1 : ((Real.pi : ℂ) / ((4 * Real.log 2 / e ^ 2 : ℝ) : ℂ)) ^ (1 / 2 : ℂ) =
      ((e * Real.sqrt (Real.pi / (4 * Real.log 2)) : ℝ) : ℂ) := by
    rw [← Complex.ofReal_div, show (1 / 2 : ℂ) = ((1 / 2 : ℝ) : ℂ) by norm_num, ← Complex.ofReal_cpow (by positivity),
      ← Real.sqrt_eq_rpow]
    congr 1
    rw [show Real.pi / (4 * Real.log 2 / e ^ 2) = e ^ 2 * (Real.pi / (4 * Real.log 2)) by field_simp,
      Real.sqrt_mul (by positivity), Real.sqrt_sq he.le]
  rw [h1, Complex.ofReal_mul (e * _), Complex.ofReal_exp]
  congr 2
  rw [← Complex.ofReal_pow, ← Complex.ofReal_neg, show (4 : ℂ) = ((4 : ℝ) : ℂ) by norm_num, ← Complex.ofReal_mul,
    ← Complex.ofReal_div]
  congr 1
  field_simp
  ring

/-! ### The property -/

/-- **C186** The brightness is half of the peak at half the width along either axis, and on the whole ellipse with these axes. -/
theorem C186_half (emaj emin angle : ℝ) (p : ℝ × ℝ)
    (h : (alongMajor angle p / (emaj / 2)) ^ 2 + (alongMinor angle p / (emin / 2)) ^ 2 = 1) :
    brightness emaj emin angle p = brightness emaj emin angle (0, 0) / 2 := by
  have h2 : (alongMajor angle p / emaj) ^ 2 + (alongMinor angle p / emin) ^ 2 = 1 / 4 := by
    have : ∀ x y : ℝ, x / (y / 2) = 2 * (x / y) := by
      intro x y
      rw [div_div_eq_mul_div, mul_comm x 2, mul_div_assoc]
    rw [this, this] at h
    linarith
  have h3 : Real.exp (-(4 * Real.log 2) * (1 / 4)) = 1 / 2 := by
    rw [show -(4 * Real.log 2) * (1 / 4) = -Real.log 2 by ring, Real.exp_neg, Real.exp_log (by norm_num), one_div]
  unfold brightness
  rw [h2, h3]
  simp [alongMajor, alongMinor]
  ring

/-- **C186** The Gaussian shape function is the visibility of a Gaussian source of unit flux with the given widths and position
angle. -/
theorem C186_shape (u v w freq emaj emin angle : ℝ) (h1 : 0 < emaj) (h2 : 0 < emin) :
    visibility (brightness emaj emin angle) u v freq = (gaussianShape u v w freq emaj emin angle : ℂ) := by
  have hl : 0 < Real.log 2 := Real.log_pos (by norm_num)
  set ka := (u * Real.sin angle + v * Real.cos angle) * freq / 299792458 with hka
  set kb := (u * Real.cos angle - v * Real.sin angle) * freq / 299792458 with hkb
  set f : ℝ → ℂ := fun a => Complex.exp (Complex.I * ((-(2 * Real.pi * ka) : ℝ) : ℂ) * a) *
    Complex.exp (-((4 * Real.log 2 / emaj ^ 2 : ℝ) : ℂ) * a ^ 2) with hf
  set g : ℝ → ℂ := fun b => Complex.exp (Complex.I * ((-(2 * Real.pi * kb) : ℝ) : ℂ) * b) *
    Complex.exp (-((4 * Real.log 2 / emin ^ 2 : ℝ) : ℂ) * b ^ 2) with hg
  have e : ∀ p : ℝ × ℝ, (brightness emaj emin angle p : ℂ) *
      Complex.exp (Complex.I * ((-(2 * Real.pi * (u * p.1 + v * p.2) * freq / 299792458) : ℝ) : ℂ)) =
      ((4 * Real.log 2 / (Real.pi * emaj * emin) : ℝ) : ℂ) * (fun q : ℝ × ℝ => f q.1 * g q.2) (turn angle p) := by
    intro p
    rw [turn_apply]
    simp only [hf, hg, brightness]
    rw [Complex.ofReal_mul, Complex.ofReal_exp, mul_assoc]
    refine congrArg _ ?_
    simp only [← Complex.exp_add]
    refine congrArg _ ?_
    have hp : u * p.1 + v * p.2 = (u * Real.sin angle + v * Real.cos angle) * alongMajor angle p +
        (u * Real.cos angle - v * Real.sin angle) * alongMinor angle p := by
      unfold alongMajor alongMinor
      have := Real.sin_sq_add_cos_sq angle
      linear_combination (-(u * p.1 + v * p.2)) * this
    rw [hp, hka, hkb]
    push_cast
    ring
  unfold visibility
  simp_rw [e]
  rw [integral_const_mul, turn_integral angle fun q : ℝ × ℝ => f q.1 * g q.2]
  have hprod : ∫ p : ℝ × ℝ, f p.1 * g p.2 = (∫ a, f a) * ∫ b, g b := integral_prod_mul (μ := volume) (ν := volume) f g
  rw [hprod, hf, hg, line emaj ka h1, line emin kb h2, ← Complex.ofReal_mul, ← Complex.ofReal_mul]
  refine congrArg _ ?_
  rw [C50_value u v w freq emaj emin angle (fun h => absurd h h1.ne'), Rime.gaussianFactor]
  have hs : Real.sqrt (Real.pi / (4 * Real.log 2)) * Real.sqrt (Real.pi / (4 * Real.log 2)) = Real.pi / (4 * Real.log 2) :=
    Real.mul_self_sqrt (by positivity)
  rw [← hka, ← hkb, mul_add, neg_add, Real.exp_add]
  set A := Real.exp (-(2 * Real.pi ^ 2 / (8 * Real.log 2) * (emaj * ka) ^ 2))
  set B := Real.exp (-(2 * Real.pi ^ 2 / (8 * Real.log 2) * (emin * kb) ^ 2))
  set q := Real.sqrt (Real.pi / (4 * Real.log 2))
  calc 4 * Real.log 2 / (Real.pi * emaj * emin) * (emaj * q * A * (emin * q * B)) =
      4 * Real.log 2 / (Real.pi * emaj * emin) * (emaj * emin) * (q * q) * (A * B) := by ring
    _ = A * B := by
      rw [hs]
      have := Real.pi_pos
      field_simp

/-- **C186** The brightness integrates to one. -/
theorem C186_flux (emaj emin angle : ℝ) (h1 : 0 < emaj) (h2 : 0 < emin) : ∫ p : ℝ × ℝ, brightness emaj emin angle p = 1 := by
  have h := C186_shape 0 0 0 1 emaj emin angle h1 h2
  rw [C50_one 0 0 0 1 emaj emin angle (Or.inl ⟨rfl, rfl⟩)] at h
  unfold visibility at h
  simp only [zero_mul, add_zero, mul_zero, zero_div, neg_zero, Complex.ofReal_zero, Complex.exp_zero, mul_one] at h
  rw [integral_complex_ofReal] at h
  exact_mod_cast h

/-- **C186** A source at another position has the visibility of the centred one times the phase of its position. -/
theorem C186_position (B : ℝ × ℝ → ℝ) (l m u v freq : ℝ) :
    visibility (fun p => B (p - (l, m))) u v freq =
      Complex.exp (Complex.I * ((-(2 * Real.pi * (u * l + v * m) * freq / 299792458) : ℝ) : ℂ)) * visibility B u v freq := by
  unfold visibility
  rw [← integral_const_mul, ← integral_sub_right_eq_self (μ := volume)
    (fun p : ℝ × ℝ => Complex.exp (Complex.I * ((-(2 * Real.pi * (u * l + v * m) * freq / 299792458) : ℝ) : ℂ)) *
      ((B p : ℂ) * Complex.exp (Complex.I * ((-(2 * Real.pi * (u * p.1 + v * p.2) * freq / 299792458) : ℝ) : ℂ)))) (l, m)]
  refine integral_congr_ae (Filter.Eventually.of_forall fun p => ?_)
  dsimp only
  rw [mul_left_comm, ← Complex.exp_add, ← mul_add, ← Complex.ofReal_add]
  congr 3
  simp only [Prod.fst_sub, Prod.snd_sub]
  ring_nf

/-- **C186** For a Gaussian source and a baseline without `w`, `wsclean_predict` gives the flux times the conjugate visibility of
the source at its position. -/
theorem C186_wsclean (u v freq : ℝ) (f : Nat) (s : Rime.WsSource) (hs : s.sourceType = "GAUSSIAN") (h1 : 0 < s.emaj)
    (h2 : 0 < s.emin) :
    Rime.wsPredictCell (u, v, 0) freq f (fun _ => s) 1 = .ok ((s.spectrum f : ℂ) *
      (starRingEnd ℂ) (visibility (fun p => brightness s.emaj s.emin s.angle (p - (s.l, s.m))) u v freq)) := by
  rw [Rime.C40_sum (u, v, 0) freq f (fun _ => s) 1 (fun _ _ => Or.inr hs) (fun _ _ h => absurd h h1.ne'), Finset.sum_range_one,
    C186_position, C186_shape u v 0 freq s.emaj s.emin s.angle h1 h2, Rime.sourceVis, if_pos hs,
    C50_value u v 0 freq s.emaj s.emin s.angle (fun h => absurd h h1.ne'), map_mul, Complex.conj_ofReal, ← mul_assoc]
  congr 3
  rw [Rime.delay, ← Complex.exp_conj, map_mul, Complex.conj_I, Complex.conj_ofReal]
  congr 1
  push_cast
  ring

/-- Non-vacuity: a source of 2 by 1 units has its half maximum at distance 1 along the `m` axis if its angle is zero. -/
example : (0 : ℝ) < 2 ∧ (alongMajor 0 (0, 1) / (2 / 2)) ^ 2 + (alongMinor 0 (0, 1) / (1 / 2)) ^ 2 = 1 := by
  refine ⟨by norm_num, ?_⟩
  simp [alongMajor, alongMinor]

end Verif.ModelData
