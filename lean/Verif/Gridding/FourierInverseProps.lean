/-
C184: the transforms of the specification are inverse to each other.
-/
import Verif.Gridding.GridderFourierProps
import Verif.Dft.BeamProps

set_option autoImplicit false

namespace Verif.Gridding

open Finset
open Complex (I)

private theorem waves (npix : Nat) (hn : 0 < npix) (y z : Nat) (hy : y < npix) (hz : z < npix) :
    ∑ v ∈ range npix, wave npix (fromCentre npix v) (fromCentre npix z) *
      (starRingEnd ℂ) (wave npix (fromCentre npix v) (fromCentre npix y)) = if z = y then (npix : ℂ) else 0 := by
  have hN : (npix : ℝ) ≠ 0 := by exact_mod_cast hn.ne'
  have e : ∀ v ∈ range npix, wave npix (fromCentre npix v) (fromCentre npix z) *
      (starRingEnd ℂ) (wave npix (fromCentre npix v) (fromCentre npix y)) =
      Complex.exp (((2 * Real.pi * (((npix / 2 : Nat) : ℝ) * ((z : ℝ) - y) / npix) : ℝ) : ℂ) * I) *
        Complex.exp (((2 * Real.pi * ((v : ℝ) * (((y : ℤ) - (z : ℤ) : ℤ) : ℝ) / npix) : ℝ) : ℂ) * I) := by
    intro v _
    unfold wave fromCentre
    generalize npix / 2 = c
    rw [← Complex.exp_conj, map_mul, Complex.conj_I, Complex.conj_ofReal, ← Complex.exp_add, ← Complex.exp_add]
    congr 1
    push_cast
    field_simp
    ring
  rw [sum_congr rfl e, ← mul_sum, Dft.roots npix hn]
  have hd : (npix : ℤ) ∣ ((y : ℤ) - (z : ℤ)) ↔ z = y := by
    constructor
    · intro h
      have := Int.eq_zero_of_abs_lt_dvd h (by rw [abs_lt]; omega)
      omega
    · rintro rfl
      simp
  by_cases h : z = y
  · subst h
    simp
  · rw [if_neg (fun h' => h (hd.1 h')), if_neg h, mul_zero]

/-- **C184**: the transforms that gridding and degridding are compared with are inverse to each other, up to the number of
pixels: no pixel is lost or moved between image and grid, for even and odd sizes. -/
theorem C184_inverse (npix : Nat) (image : Nat → Nat → ℂ) (y x : Nat) (hy : y < npix) (hx : x < npix) :
    fourierInv npix (fourier npix image) y x = (npix : ℂ) ^ 2 * image y x := by
  have hn : 0 < npix := by omega
  unfold fourierInv fourier
  have e : ∀ v ∈ range npix, ∀ u ∈ range npix, (∑ z ∈ range npix, ∑ w ∈ range npix, image z w *
      (wave npix (fromCentre npix v) (fromCentre npix z) * wave npix (fromCentre npix u) (fromCentre npix w))) *
      (starRingEnd ℂ) (wave npix (fromCentre npix v) (fromCentre npix y) * wave npix (fromCentre npix u) (fromCentre npix x)) =
      ∑ z ∈ range npix, ∑ w ∈ range npix, image z w *
        ((wave npix (fromCentre npix v) (fromCentre npix z) * (starRingEnd ℂ) (wave npix (fromCentre npix v) (fromCentre npix y))) *
        (wave npix (fromCentre npix u) (fromCentre npix w) * (starRingEnd ℂ) (wave npix (fromCentre npix u) (fromCentre npix x)))) := by
    intro v _ u _
    rw [sum_mul]
    refine sum_congr rfl fun z _ => ?_
    rw [sum_mul]
    refine sum_congr rfl fun w _ => ?_
    rw [map_mul]
    ring
  rw [sum_congr rfl fun v hv => sum_congr rfl (e v hv)]
  have e2 : ∀ v ∈ range npix, ∑ u ∈ range npix, ∑ z ∈ range npix, ∑ w ∈ range npix, image z w *
        ((wave npix (fromCentre npix v) (fromCentre npix z) * (starRingEnd ℂ) (wave npix (fromCentre npix v) (fromCentre npix y))) *
        (wave npix (fromCentre npix u) (fromCentre npix w) * (starRingEnd ℂ) (wave npix (fromCentre npix u) (fromCentre npix x)))) =
      ∑ z ∈ range npix, (wave npix (fromCentre npix v) (fromCentre npix z) *
        (starRingEnd ℂ) (wave npix (fromCentre npix v) (fromCentre npix y))) * (image z x * npix) := by
    intro v _
    rw [sum_comm]
    refine sum_congr rfl fun z _ => ?_
    rw [sum_comm]
    have : ∀ w ∈ range npix, ∑ u ∈ range npix, image z w *
        ((wave npix (fromCentre npix v) (fromCentre npix z) * (starRingEnd ℂ) (wave npix (fromCentre npix v) (fromCentre npix y))) *
        (wave npix (fromCentre npix u) (fromCentre npix w) * (starRingEnd ℂ) (wave npix (fromCentre npix u) (fromCentre npix x)))) =
        if w = x then (wave npix (fromCentre npix v) (fromCentre npix z) *
          (starRingEnd ℂ) (wave npix (fromCentre npix v) (fromCentre npix y))) * (image z w * npix) else 0 := by
      intro w hw
      rw [← mul_sum, ← mul_sum, waves npix hn x w hx (mem_range.1 hw)]
      split_ifs
      · ring
      · ring
    rw [sum_congr rfl this, sum_ite_eq' (range npix) x, if_pos (mem_range.2 hx)]
  rw [sum_congr rfl e2, sum_comm]
  have e3 : ∀ z ∈ range npix, ∑ v ∈ range npix, (wave npix (fromCentre npix v) (fromCentre npix z) *
        (starRingEnd ℂ) (wave npix (fromCentre npix v) (fromCentre npix y))) * (image z x * npix) =
      if z = y then (npix : ℂ) * (image z x * npix) else 0 := by
    intro z hz
    rw [← sum_mul, waves npix hn y z hy (mem_range.1 hz)]
    split_ifs
    · rfl
    · ring
  rw [sum_congr rfl e3, sum_ite_eq' (range npix) y, if_pos (mem_range.2 hy)]
  ring

/-- An odd size: pixels on both sides of the centre. -/
example : (0 : Nat) < 3 ∧ fromCentre 3 0 = -1 ∧ fromCentre 3 2 = 1 := by decide

end Verif.Gridding
