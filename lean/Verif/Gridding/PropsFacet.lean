/-
**C204**: the phase and baseline policies of the gridder, and images of facets away from the phase centre.
-/
import Verif.Gridding.PoliciesProps
import Verif.Rime.PropsTerms
import Mathlib.Analysis.SpecialFunctions.Trigonometric.Bounds

set_option autoImplicit false

namespace Verif.Gridding

open Verif.Rime (delay)

/-! ### Specification -/

/-- The visibility of a source of unit flux in the direction `q` on a baseline, with the phase centre `p0`. -/
noncomputable def fringeOf (sg : ℝ) (p0 q : RaDec) (uvw : ℝ × ℝ × ℝ) (nu : ℝ) : ℂ :=
  delay sg (dirCosines p0 q).1 (dirCosines p0 q).2.1 uvw.1 uvw.2.1 uvw.2.2 nu

/-- The phase factor of a number of wavelengths: `exp(sg 2 pi i x nu / c)` for a length `x`. -/
noncomputable def turns (sg x nu : ℝ) : ℂ := Complex.exp (Complex.I * ((sg * (2 * Real.pi * x * nu / 299792458) : ℝ) : ℂ))

/-! ### Lemmas -/

private theorem root_front {p0 q : RaDec} (h : 0 ≤ (dirCosines p0 q).2.2) :
    Real.sqrt (1 - (dirCosines p0 q).1 ^ 2 - (dirCosines p0 q).2.1 ^ 2) = (dirCosines p0 q).2.2 := by
  rw [show 1 - (dirCosines p0 q).1 ^ 2 - (dirCosines p0 q).2.1 ^ 2 = (dirCosines p0 q).2.2 ^ 2 by
    linear_combination -dirCosines_unit p0 q]
  exact Real.sqrt_sq h

private theorem fringe_turns {p0 q : RaDec} (h : 0 ≤ (dirCosines p0 q).2.2) (sg : ℝ) (uvw : ℝ × ℝ × ℝ) (nu : ℝ) :
    fringeOf sg p0 q uvw nu = turns sg (uvw.1 * (dirCosines p0 q).1 + uvw.2.1 * (dirCosines p0 q).2.1 +
      uvw.2.2 * ((dirCosines p0 q).2.2 - 1)) nu := by
  unfold fringeOf delay turns
  rw [root_front h]

private theorem turns_add (sg x y nu : ℝ) : turns sg (x + y) nu = turns sg x nu * turns sg y nu := by
  unfold turns
  rw [← Complex.exp_add, ← mul_add, ← Complex.ofReal_add]
  congr 3
  ring

private theorem turns_zero (sg nu : ℝ) : turns sg 0 nu = 1 := by unfold turns; simp

private theorem rotate_turns (vis : Nat → Nat → ℂ) (uvw : ℝ × ℝ × ℝ) (nu : Nat → ℝ) (p0 p : RaDec) (sg : ℝ) (c k : Nat) :
    phaseRotate vis uvw.1 uvw.2.1 uvw.2.2 (fun c => 299792458 / nu c) p0 p (-sg) c k =
      vis c k * turns sg (-(uvw.1 * (phaseLmn p0 p).1 + uvw.2.1 * (phaseLmn p0 p).2.1 + uvw.2.2 * (phaseLmn p0 p).2.2)) (nu c) := by
  unfold phaseRotate turns
  dsimp only
  rw [Complex.ofReal_cos, Complex.ofReal_sin, mul_comm Complex.I (Complex.sin _), ← Complex.exp_mul_I, mul_comm Complex.I]
  congr 4
  rw [div_div_eq_mul_div]
  ring

private theorem dot_rotated (p0 p q : RaDec) (x : ℝ × ℝ × ℝ) :
    (rotated p0 p x).1 * (dirCosines p q).1 + (rotated p0 p x).2.1 * (dirCosines p q).2.1 +
      (rotated p0 p x).2.2 * (dirCosines p q).2.2 =
    x.1 * (dirCosines p0 q).1 + x.2.1 * (dirCosines p0 q).2.1 + x.2.2 * (dirCosines p0 q).2.2 := by
  have h1 := Real.sin_sq_add_cos_sq p.2
  have hE : q.1 - p0.1 = (q.1 - p.1) + (p.1 - p0.1) := by ring
  simp only [rotated, rotMatrix, dirCosines]
  rw [hE, Real.sin_add, Real.cos_add]
  generalize Real.sin (q.1 - p.1) = sf
  generalize Real.cos (q.1 - p.1) = cf
  generalize Real.sin (p.1 - p0.1) = sd
  generalize Real.cos (p.1 - p0.1) = cd
  generalize Real.sin p.2 = sn at *
  generalize Real.cos p.2 = cn at *
  generalize Real.sin p0.2 = so
  generalize Real.cos p0.2 = co
  linear_combination (x.1 * Real.cos q.2 * sd * cf + x.2.1 * (co * Real.sin q.2 - so * cd * cf * Real.cos q.2) +
    x.2.2 * (so * Real.sin q.2 + co * cd * cf * Real.cos q.2)) * h1

private theorem rotated_w (p0 p : RaDec) (x : ℝ × ℝ × ℝ) : (rotated p0 p x).2.2 =
    x.1 * (dirCosines p0 p).1 + x.2.1 * (dirCosines p0 p).2.1 + x.2.2 * (dirCosines p0 p).2.2 := by
  simp only [rotated, rotMatrix, dirCosines]
  ring

private theorem dot_directions (p0 p q : RaDec) : (dirCosines p0 p).1 * (dirCosines p0 q).1 +
    (dirCosines p0 p).2.1 * (dirCosines p0 q).2.1 + (dirCosines p0 p).2.2 * (dirCosines p0 q).2.2 = (dirCosines p q).2.2 := by
  have h := Real.sin_sq_add_cos_sq p0.2
  have hE : q.1 - p.1 = (q.1 - p0.1) - (p.1 - p0.1) := by ring
  simp only [dirCosines]
  rw [hE, Real.cos_sub (q.1 - p0.1) (p.1 - p0.1)]
  linear_combination (Real.sin p.2 * Real.sin q.2 + Real.cos p.2 * Real.cos q.2 * Real.cos (p.1 - p0.1) *
    Real.cos (q.1 - p0.1)) * h

/-! ### Properties -/

/-- **C204** Phase rotation to a direction takes the phase of a source in that direction away, on every baseline and in every
channel, whatever its spectrum `B`. -/
theorem C204_centre (sg : ℝ) (p0 p : RaDec) (uvw : ℝ × ℝ × ℝ) (nu : Nat → ℝ) (B : Nat → Nat → ℂ) :
    phasePolicy "phase_rotate" (fun c k => fringeOf sg p0 p uvw (nu c) * B c k) uvw.1 uvw.2.1 uvw.2.2
      (fun c => 299792458 / nu c) p0 p (-sg) = .ok B := by
  show Except.ok _ = _
  congr 1
  funext c k
  rw [rotate_turns]
  have : fringeOf sg p0 p uvw (nu c) = turns sg (uvw.1 * (phaseLmn p0 p).1 + uvw.2.1 * (phaseLmn p0 p).2.1 +
      uvw.2.2 * (phaseLmn p0 p).2.2) (nu c) := by
    unfold fringeOf delay turns phaseLmn dirCosines
    dsimp only
    congr 4
    rw [sq, sq]
    ring
  rw [this, mul_right_comm, ← turns_add, add_neg_cancel, turns_zero, one_mul]

/-- **C204** With phases rotated to a direction and baselines turned by the documented rotation, every source has the visibilities
it would have with that direction as phase centre. Missing: the policy `rotate` does not apply that rotation, see `C79_violated`. -/
theorem C204_rotated_partial (sg : ℝ) (p0 p q : RaDec) (uvw : ℝ × ℝ × ℝ) (nu : Nat → ℝ) (B : Nat → Nat → ℂ)
    (hq : 0 ≤ (dirCosines p0 q).2.2) (hp : 0 ≤ (dirCosines p0 p).2.2) (hqp : 0 ≤ (dirCosines p q).2.2) :
    phasePolicy "phase_rotate" (fun c k => fringeOf sg p0 q uvw (nu c) * B c k) uvw.1 uvw.2.1 uvw.2.2
      (fun c => 299792458 / nu c) p0 p (-sg) =
        .ok fun c k => fringeOf sg p q (rotated p0 p uvw) (nu c) * B c k := by
  show Except.ok _ = _
  congr 1
  funext c k
  rw [rotate_turns, (C78_offset p0 p).2 hp, fringe_turns hq, fringe_turns hqp, mul_right_comm, ← turns_add]
  congr 2
  linear_combination -dot_rotated p0 p q uvw + rotated_w p0 p uvw

/-- **C204** With the planar approximation `wlinapprox` instead, a source has the visibilities of its offset in `l` and `m` from the
centre of the facet, but for a phase of `-w (1 - cos a) / n` lengths, where `a` is its angle from the centre of the facet and `n` the
cosine of the angle between the centres. -/
theorem C204_planar (sg : ℝ) (p0 p q : RaDec) (mem : Nat → ℝ) (a : Nat) (nu : Nat → ℝ) (B : Nat → Nat → ℂ)
    (hq : 0 ≤ (dirCosines p0 q).2.2) (hp : 0 < (dirCosines p0 p).2.2) :
    ∃ mem' V, baselinePolicy "wlinapprox" mem a p0 p = .ok mem' ∧
      phasePolicy "phase_rotate" (fun c k => fringeOf sg p0 q (mem a, mem (a + 1), mem (a + 2)) (nu c) * B c k) (mem a)
        (mem (a + 1)) (mem (a + 2)) (fun c => 299792458 / nu c) p0 p (-sg) = .ok V ∧
      ∀ c k, V c k = turns sg (mem' a * ((dirCosines p0 q).1 - (dirCosines p0 p).1) +
          mem' (a + 1) * ((dirCosines p0 q).2.1 - (dirCosines p0 p).2.1)) (nu c) *
        turns sg (-(mem (a + 2) * (1 - (dirCosines p q).2.2) / (dirCosines p0 p).2.2)) (nu c) * B c k := by
  obtain ⟨-, mem', h1, h2, h3, -⟩ := C79_planar mem a p0 p
  refine ⟨mem', _, h1, rfl, fun c k => ?_⟩
  have e := rotate_turns (fun c k => fringeOf sg p0 q (mem a, mem (a + 1), mem (a + 2)) (nu c) * B c k)
    (mem a, mem (a + 1), mem (a + 2)) nu p0 p sg c k
  dsimp only at e
  rw [e, (C78_offset p0 p).2 hp.le, fringe_turns hq, mul_right_comm, ← turns_add, ← turns_add, h2, h3]
  congr 2
  dsimp only
  have hu := dirCosines_unit p0 p
  have hd := dot_directions p0 p q
  have hn : (dirCosines p0 p).2.2 ≠ 0 := hp.ne'
  field_simp
  linear_combination mem (a + 2) * (hd - hu)

/-- **C204** So the planar approximation is wrong by at most `2 pi |w| (1 - cos a) / n` in wavelengths, relative to the flux, and
not at all for baselines without `w` or at the centre of the facet. -/
theorem C204_planar_error (sg : ℝ) (hsg : |sg| = 1) (p0 p q : RaDec) (mem : Nat → ℝ) (a : Nat) (nu : Nat → ℝ) (B : Nat → Nat → ℂ)
    (hq : 0 ≤ (dirCosines p0 q).2.2) (hp : 0 < (dirCosines p0 p).2.2) :
    ∃ mem' V, baselinePolicy "wlinapprox" mem a p0 p = .ok mem' ∧
      phasePolicy "phase_rotate" (fun c k => fringeOf sg p0 q (mem a, mem (a + 1), mem (a + 2)) (nu c) * B c k) (mem a)
        (mem (a + 1)) (mem (a + 2)) (fun c => 299792458 / nu c) p0 p (-sg) = .ok V ∧
      ∀ c k, ‖V c k - turns sg (mem' a * ((dirCosines p0 q).1 - (dirCosines p0 p).1) +
          mem' (a + 1) * ((dirCosines p0 q).2.1 - (dirCosines p0 p).2.1)) (nu c) * B c k‖ ≤
        ‖B c k‖ * (2 * Real.pi * (|mem (a + 2)| * (1 - (dirCosines p q).2.2) / (dirCosines p0 p).2.2) * |nu c| / 299792458) := by
  obtain ⟨mem', V, h1, h2, h3⟩ := C204_planar sg p0 p q mem a nu B hq hp
  refine ⟨mem', V, h1, h2, fun c k => ?_⟩
  rw [h3]
  set A := turns sg (mem' a * ((dirCosines p0 q).1 - (dirCosines p0 p).1) +
    mem' (a + 1) * ((dirCosines p0 q).2.1 - (dirCosines p0 p).2.1)) (nu c) with hA
  set x := mem (a + 2) * (1 - (dirCosines p q).2.2) / (dirCosines p0 p).2.2 with hx
  have hA1 : ‖A‖ = 1 := by
    rw [hA]; unfold turns; rw [mul_comm]; exact Complex.norm_exp_ofReal_mul_I _
  have hcos : 0 ≤ 1 - (dirCosines p q).2.2 := by
    nlinarith [dirCosines_unit p q, sq_nonneg (dirCosines p q).1, sq_nonneg (dirCosines p q).2.1]
  have hax : |x| = |mem (a + 2)| * (1 - (dirCosines p q).2.2) / (dirCosines p0 p).2.2 := by
    rw [hx, abs_div, abs_mul, abs_of_nonneg hcos, abs_of_pos hp]
  rw [← hax, show A * turns sg (-x) (nu c) * B c k - A * B c k = A * (turns sg (-x) (nu c) - 1) * B c k by ring, norm_mul, norm_mul,
    hA1, one_mul, mul_comm]
  refine mul_le_mul_of_nonneg_left ?_ (norm_nonneg _)
  refine (Real.norm_exp_I_mul_ofReal_sub_one_le).trans ?_
  rw [Real.norm_eq_abs, abs_mul, hsg, one_mul, abs_div, abs_mul, abs_mul, abs_neg, abs_of_pos Real.two_pi_pos,
    abs_of_pos (show (0 : ℝ) < 299792458 by norm_num)]

/-- A facet a sixth of a turn from the phase centre, and a source at the phase centre, meet the hypotheses; the approximation is
wrong by `w` lengths there. -/
example : 0 ≤ (dirCosines (0, 0) (0, 0)).2.2 ∧ 0 < (dirCosines (0, 0) (Real.pi / 3, 0)).2.2 ∧
    0 ≤ (dirCosines (Real.pi / 3, 0) (0, 0)).2.2 ∧
    (1 - (dirCosines (Real.pi / 3, 0) (0, 0)).2.2) / (dirCosines (0, 0) (Real.pi / 3, 0)).2.2 = 1 := by
  have h : Real.cos (-(Real.pi / 3)) = 1 / 2 := by rw [Real.cos_neg, Real.cos_pi_div_three]
  simp [dirCosines, h]
  norm_num

end Verif.Gridding
