/-
Model of `twod_gaussian` (deconv/hogbom/clean.py:20-33) and its properties: C93.
-/
import Verif.Basic
import Mathlib.Analysis.SpecialFunctions.Trigonometric.Basic
import Mathlib.Tactic.FieldSimp
import Mathlib.Tactic.Ring
import Mathlib.Tactic.Positivity
import Mathlib.Tactic.Linarith

set_option autoImplicit false

namespace Verif.Deconv

/-- One element of `twod_gaussian` (deconv/hogbom/clean.py:20-33), in exact arithmetic; `flatten` is not modelled. -/
noncomputable def twodGaussian (x y amplitude xo yo sigmaX sigmaY theta offset : ℝ) : ℝ :=
  let a := Real.cos theta ^ 2 / (2 * sigmaX ^ 2) + Real.sin theta ^ 2 / (2 * sigmaY ^ 2)
  let b := -(Real.sin (2 * theta)) / (4 * sigmaX ^ 2) + Real.sin (2 * theta) / (4 * sigmaY ^ 2)
  let c := Real.sin theta ^ 2 / (2 * sigmaX ^ 2) + Real.cos theta ^ 2 / (2 * sigmaY ^ 2)
  offset + amplitude * Real.exp (-(a * (x - xo) ^ 2 + 2 * b * (x - xo) * (y - yo) + c * (y - yo) ^ 2))

/-- The elliptical Gaussian: axes rotated by `theta`, standard deviations `sigmaX` and `sigmaY` along them
(a specification for deconv/hogbom/clean.py:20-33). -/
noncomputable def ellipticalGaussian (x y amplitude xo yo sigmaX sigmaY theta offset : ℝ) : ℝ :=
  let s := (x - xo) * Real.cos theta - (y - yo) * Real.sin theta
  let t := (x - xo) * Real.sin theta + (y - yo) * Real.cos theta
  offset + amplitude * Real.exp (-((s / sigmaX) ^ 2 / 2 + (t / sigmaY) ^ 2 / 2))

/-- **C93**: `twod_gaussian` is the elliptical Gaussian in rotated coordinates, for every position and every non-zero
width. -/
theorem C93_elliptical (x y amplitude xo yo sigmaX sigmaY theta offset : ℝ) (hx : sigmaX ≠ 0) (hy : sigmaY ≠ 0) :
    twodGaussian x y amplitude xo yo sigmaX sigmaY theta offset =
      ellipticalGaussian x y amplitude xo yo sigmaX sigmaY theta offset := by
  unfold twodGaussian ellipticalGaussian
  dsimp only
  congr 3
  rw [Real.sin_two_mul]
  field_simp
  ring

/-- **C93**: the value at the centre is `offset + amplitude`. -/
theorem C93_centre (amplitude xo yo sigmaX sigmaY theta offset : ℝ) :
    twodGaussian xo yo amplitude xo yo sigmaX sigmaY theta offset = offset + amplitude := by
  simp [twodGaussian]

/-- **C93**: for a positive amplitude every value lies above the offset and is at most the value at the centre, with
equality only at the centre. -/
theorem C93_bounds (x y amplitude xo yo sigmaX sigmaY theta offset : ℝ) (hx : sigmaX ≠ 0) (hy : sigmaY ≠ 0)
    (ha : 0 < amplitude) :
    offset < twodGaussian x y amplitude xo yo sigmaX sigmaY theta offset ∧
    twodGaussian x y amplitude xo yo sigmaX sigmaY theta offset ≤ offset + amplitude ∧
    (twodGaussian x y amplitude xo yo sigmaX sigmaY theta offset = offset + amplitude → x = xo ∧ y = yo) := by
  rw [C93_elliptical _ _ _ _ _ _ _ _ _ hx hy]
  unfold ellipticalGaussian
  dsimp only
  set s := (x - xo) * Real.cos theta - (y - yo) * Real.sin theta with hs
  set t := (x - xo) * Real.sin theta + (y - yo) * Real.cos theta with ht
  have h0 : 0 ≤ (s / sigmaX) ^ 2 / 2 + (t / sigmaY) ^ 2 / 2 := by positivity
  refine ⟨?_, ?_, fun h => ?_⟩
  · have := mul_pos ha (Real.exp_pos (-((s / sigmaX) ^ 2 / 2 + (t / sigmaY) ^ 2 / 2)))
    linarith
  · have h1 : Real.exp (-((s / sigmaX) ^ 2 / 2 + (t / sigmaY) ^ 2 / 2)) ≤ 1 :=
      Real.exp_le_one_iff.mpr (by linarith)
    have := mul_le_mul_of_nonneg_left h1 ha.le
    linarith
  · have h1 : amplitude * Real.exp (-((s / sigmaX) ^ 2 / 2 + (t / sigmaY) ^ 2 / 2)) = amplitude * 1 := by linarith
    have h2 := (Real.exp_eq_one_iff _).mp (mul_left_cancel₀ ha.ne' h1)
    have h3 : (s / sigmaX) ^ 2 = 0 := by nlinarith [sq_nonneg (s / sigmaX), sq_nonneg (t / sigmaY)]
    have h4 : (t / sigmaY) ^ 2 = 0 := by nlinarith [sq_nonneg (s / sigmaX), sq_nonneg (t / sigmaY)]
    have h5 : s = 0 := by
      rcases div_eq_zero_iff.mp (pow_eq_zero_iff (two_ne_zero) |>.mp h3) with h | h
      · exact h
      · exact absurd h hx
    have h6 : t = 0 := by
      rcases div_eq_zero_iff.mp (pow_eq_zero_iff (two_ne_zero) |>.mp h4) with h | h
      · exact h
      · exact absurd h hy
    have hcs := Real.sin_sq_add_cos_sq theta
    have h7 : x - xo = 0 := by
      have : x - xo = s * Real.cos theta + t * Real.sin theta := by rw [hs, ht]; linear_combination (-(x - xo)) * hcs
      rw [this, h5, h6]; ring
    have h8 : y - yo = 0 := by
      have : y - yo = t * Real.cos theta - s * Real.sin theta := by rw [hs, ht]; linear_combination (-(y - yo)) * hcs
      rw [this, h5, h6]; ring
    exact ⟨by linarith, by linarith⟩

/-- **C93**: turning the ellipse by half a turn, and exchanging the widths with a quarter turn, change nothing. -/
theorem C93_symmetries (x y amplitude xo yo sigmaX sigmaY theta offset : ℝ) :
    twodGaussian x y amplitude xo yo sigmaX sigmaY (theta + Real.pi) offset =
      twodGaussian x y amplitude xo yo sigmaX sigmaY theta offset ∧
    twodGaussian x y amplitude xo yo sigmaY sigmaX (theta + Real.pi / 2) offset =
      twodGaussian x y amplitude xo yo sigmaX sigmaY theta offset := by
  constructor
  · unfold twodGaussian
    dsimp only
    rw [show 2 * (theta + Real.pi) = 2 * theta + 2 * Real.pi by ring, Real.sin_add_two_pi, Real.cos_add_pi,
      Real.sin_add_pi]
    simp only [neg_sq]
  · unfold twodGaussian
    dsimp only
    rw [show 2 * (theta + Real.pi / 2) = 2 * theta + Real.pi by ring, Real.sin_add_pi, Real.cos_add_pi_div_two,
      Real.sin_add_pi_div_two]
    congr 3
    ring


/-- Non-vacuity: widths `2` and `1`, amplitude `1`, off the centre. -/
example : 3 < twodGaussian 1 0 1 0 0 2 1 0 3 ∧ twodGaussian 1 0 1 0 0 2 1 0 3 ≠ 3 + 1 :=
  have h := C93_bounds 1 0 1 0 0 2 1 0 3 (by norm_num) (by norm_num) (by norm_num)
  ⟨h.1, fun e => by have := (h.2.2 e).1; norm_num at this⟩

end Verif.Deconv
