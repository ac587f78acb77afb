/-
C184: gridding and degridding against the direct Fourier transform.
-/
import Verif.Gridding.GridderTotalProps
import Verif.Dft.Props
import Mathlib.Analysis.SpecialFunctions.Trigonometric.Bounds

set_option autoImplicit false

namespace Verif.Gridding

open Finset
open Complex (I)

/-! ### Specification -/

/-- The offset of a pixel or cell from the centre of an axis of `npix` pixels. -/
def fromCentre (npix : Nat) (x : Nat) : ℤ := (x : ℤ) - ((npix / 2 : Nat) : ℤ)

/-- `e^(-2 pi i s x / npix)`: the phase, at offset `x` of the image, of the wave with grid coordinate `s`. -/
noncomputable def wave (npix : Nat) (s : ℝ) (x : ℤ) : ℂ := Complex.exp (I * ((-(2 * Real.pi * s * x / npix) : ℝ) : ℂ))

/-- The discrete Fourier transform of an image, centre to centre: `fftshift(fft2(ifftshift(image)))`. -/
noncomputable def fourier (npix : Nat) (image : Nat → Nat → ℂ) (v u : Nat) : ℂ :=
  ∑ y ∈ range npix, ∑ x ∈ range npix, image y x *
    (wave npix (fromCentre npix v) (fromCentre npix y) * wave npix (fromCentre npix u) (fromCentre npix x))

/-- The conjugate transform of a grid (without the factor `1 / npix²`): `npix² fftshift(ifft2(ifftshift(grid)))`. -/
noncomputable def fourierInv (npix : Nat) (grid : Nat → Nat → ℂ) (y x : Nat) : ℂ :=
  ∑ v ∈ range npix, ∑ u ∈ range npix, grid v u *
    (starRingEnd ℂ) (wave npix (fromCentre npix v) (fromCentre npix y) * wave npix (fromCentre npix u) (fromCentre npix x))

/-- The direct Fourier transform of an image at the baseline with grid coordinates `(su, sv)`. -/
noncomputable def direct (npix : Nat) (image : Nat → Nat → ℂ) (su sv : ℝ) : ℂ :=
  ∑ y ∈ range npix, ∑ x ∈ range npix, image y x * (wave npix sv (fromCentre npix y) * wave npix su (fromCentre npix x))

/-- The direction cosine of a pixel, with a cell size in seconds of arc. -/
noncomputable def pixelCosine (cfg : Cfg) (npix x : Nat) : ℝ := fromCentre npix x * (cfg.cellsize / 3600 * Real.pi / 180)

/-- What the taps of a sample make of a wave at image offset `x`: the transform of the kernel. -/
noncomputable def taper (tap : Kern → Nat → ℝ → Nat → ℝ) (k : Kern) (npix : Nat) (s : ℝ) (x : ℤ) : ℂ :=
  ∑ t ∈ range k.W, (tap k npix s t : ℂ) * wave npix ((lookup k npix s t : ℝ) - ((npix / 2 : Nat) : ℝ) - s) x

/-- No tap of a sample is negative. -/
def TapsNonneg (tap : Kern → Nat → ℝ → Nat → ℝ) (k : Kern) (npix : Nat) (s : ℝ) : Prop := ∀ t < k.W, 0 ≤ tap k npix s t

/-- The largest phase error, at image offset `x`, of a wave taken from the cells of a kernel of width `W`. -/
noncomputable def phaseBound (W npix : Nat) (x : ℤ) : ℝ := Real.pi * (W + 1) * |(x : ℝ)| / npix

/-! ### Lemmas -/

private theorem wave_add (npix : Nat) (s s' : ℝ) (x : ℤ) : wave npix (s + s') x = wave npix s x * wave npix s' x := by
  unfold wave
  rw [← Complex.exp_add]
  congr 1
  push_cast
  ring

private theorem norm_wave (npix : Nat) (s : ℝ) (x : ℤ) : ‖wave npix s x‖ = 1 := by
  unfold wave
  rw [mul_comm]
  exact Complex.norm_exp_ofReal_mul_I _

private theorem taps_wave (tap : Kern → Nat → ℝ → Nat → ℝ) (k : Kern) (npix : Nat) (s : ℝ) (h : OnGrid k npix s) (x : ℤ) :
    ∑ u ∈ range npix, (tapAt tap k npix s (u : ℤ) : ℂ) * wave npix (fromCentre npix u) x = wave npix s x * taper tap k npix s x := by
  have e : ∀ u ∈ range npix, (tapAt tap k npix s (u : ℤ) : ℂ) * wave npix (fromCentre npix u) x =
      ∑ t ∈ range k.W, if lookup k npix s t = (u : ℤ) then (tap k npix s t : ℂ) * wave npix (fromCentre npix u) x else 0 := by
    intro u _
    have h1 := sum_tap tap k npix s (u : ℤ) id rfl
    simp only [id_eq] at h1
    rw [← h1, Complex.ofReal_sum, sum_mul]
    refine sum_congr rfl fun t _ => ?_
    split_ifs <;> simp
  rw [sum_congr rfl e, sum_comm, taper, mul_sum]
  refine sum_congr rfl fun t ht => ?_
  obtain ⟨h0, h1⟩ := h t (mem_range.1 ht)
  rw [sum_eq_single (lookup k npix s t).toNat]
  · rw [if_pos (by omega), mul_left_comm, ← wave_add]
    refine congrArg (fun z => (tap k npix s t : ℂ) * wave npix z x) ?_
    unfold fromCentre
    rw [Int.toNat_of_nonneg h0]
    simp only [Int.cast_sub, Int.cast_natCast]
    ring
  · intro u _ hu
    rw [if_neg (by omega)]
  · intro hn
    exact absurd (mem_range.2 (by omega)) hn

private theorem lookup_near (k : Kern) (npix : Nat) (s : ℝ) (t : Nat) (ht : t < k.W) :
    |(lookup k npix s t : ℝ) - ((npix / 2 : Nat) : ℝ) - s| ≤ (k.W + 1) / 2 := by
  have h1 := npRound_close (s + ((npix / 2 : Nat) : ℝ))
  unfold lookup disc
  simp only [Int.cast_sub, Int.cast_add, Int.cast_natCast]
  have h2 : ((k.W / 2 : Nat) : ℝ) ≤ (k.W : ℝ) / 2 := Nat.cast_div_le
  have h3 : (t : ℝ) - ((k.W / 2 : Nat) : ℝ) ≤ (k.W : ℝ) / 2 := by
    have : (t : ℤ) * 2 ≤ k.W + 2 * ((k.W / 2 : Nat) : ℤ) := by omega
    have : (t : ℝ) * 2 ≤ k.W + 2 * ((k.W / 2 : Nat) : ℝ) := by exact_mod_cast this
    linarith
  rw [abs_le] at h1 ⊢
  have h4 : (0 : ℝ) ≤ t := Nat.cast_nonneg t
  constructor <;> linarith [h1.1, h1.2]

private theorem wave_close (npix : Nat) (s : ℝ) (x : ℤ) (W : Nat) (h : |s| ≤ (W + 1) / 2) :
    ‖wave npix s x - 1‖ ≤ phaseBound W npix x := by
  unfold wave phaseBound
  refine (Real.norm_exp_I_mul_ofReal_sub_one_le).trans ?_
  rw [Real.norm_eq_abs, abs_neg, abs_div, abs_mul, abs_mul, abs_of_pos Real.two_pi_pos, Nat.abs_cast]
  have : 2 * Real.pi * |s| * |(x : ℝ)| ≤ Real.pi * (W + 1) * |(x : ℝ)| := by
    refine mul_le_mul_of_nonneg_right ?_ (abs_nonneg _)
    nlinarith [Real.pi_pos]
  exact div_le_div_of_nonneg_right this (Nat.cast_nonneg _)

private theorem phaseBound_nonneg (W npix : Nat) (x : ℤ) : 0 ≤ phaseBound W npix x := by
  unfold phaseBound
  have := Real.pi_pos
  positivity

/-- The product of two tapers is the sum of the taps up to the phase errors. -/
private theorem taper_close (tap : Kern → Nat → ℝ → Nat → ℝ) (k : Kern) (npix : Nat) (su sv : ℝ) (hu : TapsNonneg tap k npix su)
    (hv : TapsNonneg tap k npix sv) (y x : ℤ) :
    ‖taper tap k npix sv y * taper tap k npix su x - (tapSum tap k npix su sv : ℂ)‖ ≤
      tapSum tap k npix su sv * (phaseBound k.W npix y + phaseBound k.W npix x) := by
  have e : taper tap k npix sv y * taper tap k npix su x - (tapSum tap k npix su sv : ℂ) =
      ∑ t ∈ range k.W, ∑ t' ∈ range k.W, ((tap k npix sv t * tap k npix su t' : ℝ) : ℂ) *
        (wave npix ((lookup k npix sv t : ℝ) - ((npix / 2 : Nat) : ℝ) - sv) y *
          wave npix ((lookup k npix su t' : ℝ) - ((npix / 2 : Nat) : ℝ) - su) x - 1) := by
    unfold taper tapSum
    rw [sum_mul_sum, sum_mul_sum, Complex.ofReal_sum, ← sum_sub_distrib]
    refine sum_congr rfl fun t _ => ?_
    rw [Complex.ofReal_sum, ← sum_sub_distrib]
    refine sum_congr rfl fun t' _ => ?_
    push_cast
    ring
  rw [e, tapSum, sum_mul_sum, sum_mul]
  refine (norm_sum_le _ _).trans (sum_le_sum fun t ht => ?_)
  rw [sum_mul]
  refine (norm_sum_le _ _).trans (sum_le_sum fun t' ht' => ?_)
  have hn : 0 ≤ tap k npix sv t * tap k npix su t' := mul_nonneg (hv t (mem_range.1 ht)) (hu t' (mem_range.1 ht'))
  rw [norm_mul, Complex.norm_real, Real.norm_of_nonneg hn]
  refine mul_le_mul_of_nonneg_left ?_ hn
  have h1 := wave_close npix _ y k.W (lookup_near k npix sv t (mem_range.1 ht))
  have h2 := wave_close npix _ x k.W (lookup_near k npix su t' (mem_range.1 ht'))
  set A := wave npix ((lookup k npix sv t : ℝ) - ((npix / 2 : Nat) : ℝ) - sv) y with hA
  set B := wave npix ((lookup k npix su t' : ℝ) - ((npix / 2 : Nat) : ℝ) - su) x with hB
  have hBn : ‖B‖ = 1 := norm_wave _ _ _
  calc ‖A * B - 1‖ = ‖(A - 1) * B + (B - 1)‖ := by congr 1; ring
    _ ≤ ‖(A - 1) * B‖ + ‖B - 1‖ := norm_add_le _ _
    _ ≤ _ := by rw [norm_mul, hBn, mul_one]; exact add_le_add h1 h2

private theorem sum_rows (n m : Nat) (f : Nat → ℂ) : ∑ j ∈ range (n * m), f j = ∑ i ∈ range n, ∑ k ∈ range m, f (i * m + k) := by
  induction n with
  | zero => simp
  | succ n ih => rw [Nat.succ_mul, sum_range_add, ih, sum_range_succ]

/-! ### The property -/

/-- **C184** The wave of a baseline over the pixels is the phase delay of the pixels' directions, for the wavelength of the
channel and no `w`. -/
theorem C184_directions (cfg : Cfg) (npix : Nat) (hn : 0 < npix) (uvw : Nat → ℝ) (r ch y x : Nat) :
    wave npix (gridCoord cfg npix uvw r ch 1) (fromCentre npix y) * wave npix (gridCoord cfg npix uvw r ch 0) (fromCentre npix x) =
      Rime.delay (-1) (pixelCosine cfg npix x) (pixelCosine cfg npix y) (uvw (3 * r)) (uvw (3 * r + 1)) 0
        (299792458 / cfg.wavelengths ch) := by
  unfold wave Rime.delay gridCoord pixelCosine scaleFactor
  rw [← Complex.exp_add, ← mul_add, ← Complex.ofReal_add]
  congr 3
  have hN : (npix : ℝ) ≠ 0 := by exact_mod_cast hn.ne'
  rw [zero_mul, add_zero, add_zero, div_eq_mul_inv (299792458 : ℝ), div_eq_mul_inv _ (cfg.wavelengths ch),
    div_eq_mul_inv _ (cfg.wavelengths ch)]
  field_simp
  ring

section degrid
variable (cfg : Cfg) (c st : String) (hpair : (c, st) ∈ pairs) (hs : cfg.stokes = c ++ "_FROM_" ++ st)
  (hb : cfg.baseline = "None") (hp : cfg.phase = "None")
  (gb npix nx nrow uc : Nat) (uvw : Nat → ℝ) (G : ℤ → ℂ) (d : DegridState)
  (h : degridder cfg gb npix nx nrow uc uvw G = .ok d) (r ch : Nat) (hr : r < nrow) (hch : ch < cfg.nlam)
  (image : Nat → Nat → ℂ)
  (hG : ∀ v u : Nat, v < npix → u < npix → G (cell npix (cfg.chanmap ch) v u) = fourier npix image v u)
  (hon : OnGrid cfg.kern npix (gridCoord cfg npix uvw r ch 0) ∧ OnGrid cfg.kern npix (gridCoord cfg npix uvw r ch 1))
  (k : Nat → ℂ) (hk : stokes2corr cfg.stokes 1 (fun _ => 0) = .ok k)

include hpair hs hb hp h hr hch hG hon hk in
/-- **C184** Degridding the Fourier transform of an image gives the direct transform of the image multiplied with the transform
of the kernel. (`k i` is correlation `i` of a unit Stokes parameter; all taps fall on the grid.) -/
theorem C184_degrid (i : Nat) :
    d.vis r ch i = k i * (direct npix (fun y x => image y x *
        (taper (gatherTapOf cfg.conv) cfg.kern npix (gridCoord cfg npix uvw r ch 1) (fromCentre npix y) *
          taper (gatherTapOf cfg.conv) cfg.kern npix (gridCoord cfg npix uvw r ch 0) (fromCentre npix x)))
        (gridCoord cfg npix uvw r ch 0) (gridCoord cfg npix uvw r ch 1) /
      ((tapSum (gatherTapOf cfg.conv) cfg.kern npix (gridCoord cfg npix uvw r ch 0) (gridCoord cfg npix uvw r ch 1) +
        1 / 100000000 : ℝ) : ℂ)) := by
  obtain ⟨coef, n, -, hc1, -⟩ := pair_coef c st hpair
  rw [← hs] at hc1
  have hki : k i = coef i := by
    rw [hc1] at hk
    cases hk
    simp
  have hco : ∀ j, scaledD cfg npix uvw r ch j = gridCoord cfg npix uvw r ch j := by
    intro j
    rw [scaledD, gridCoord, rowCoord, hb, baselinePolicy, if_pos rfl, okOr]
  rw [(degridder_value h coef hc1).1 r, if_pos hr, degridVis]
  simp only [hp, phasePolicy, if_true, okOr]
  rw [if_pos hch, collected, hco, hco, hki]
  set su := gridCoord cfg npix uvw r ch 0
  set sv := gridCoord cfg npix uvw r ch 1
  set tap := gatherTapOf cfg.conv
  have hwi : weightIn tap cfg.kern npix su sv = tapSum tap cfg.kern npix su sv := by
    unfold weightIn
    rw [← C178_inside cfg npix uvw r ch hon, sum_mul_sum]
  have hga : gathered tap cfg.kern npix (cfg.chanmap ch) su sv G =
      direct npix (fun y x => image y x * (taper tap cfg.kern npix sv (fromCentre npix y) *
        taper tap cfg.kern npix su (fromCentre npix x))) su sv := by
    unfold gathered direct
    have e1 : ∀ v ∈ range npix, ∀ u ∈ range npix, (tapAt tap cfg.kern npix sv v : ℂ) * (tapAt tap cfg.kern npix su u : ℂ) *
        G (cell npix (cfg.chanmap ch) v u) = ∑ y ∈ range npix, ∑ x ∈ range npix, image y x *
          (((tapAt tap cfg.kern npix sv v : ℂ) * wave npix (fromCentre npix v) (fromCentre npix y)) *
          ((tapAt tap cfg.kern npix su u : ℂ) * wave npix (fromCentre npix u) (fromCentre npix x))) := by
      intro v hv u hu
      rw [hG v u (mem_range.1 hv) (mem_range.1 hu), fourier, mul_sum]
      refine sum_congr rfl fun y _ => ?_
      rw [mul_sum]
      exact sum_congr rfl fun x _ => by ring
    rw [sum_congr rfl fun v hv => sum_congr rfl fun u hu => e1 v hv u hu]
    rw [sum_congr rfl fun v _ => sum_comm, sum_comm]
    refine sum_congr rfl fun y _ => ?_
    rw [sum_congr rfl fun v _ => sum_comm, sum_comm]
    refine sum_congr rfl fun x _ => ?_
    simp only [← mul_sum, ← sum_mul]
    rw [taps_wave tap cfg.kern npix sv hon.2, taps_wave tap cfg.kern npix su hon.1]
    ring
  rw [hga, hwi]
  ring

include hpair hs hb hp h hr hch hG hon hk in
/-- **C184** With taps that are not negative and a positive sum `w`, the degridded visibility differs from the direct transform
of the image by at most the brightness of each pixel times the phase error of its offset, plus one part in `1e8 w`. A source at
the centre of the image has no phase error. -/
theorem C184_degrid_error (i : Nat)
    (hu : TapsNonneg (gatherTapOf cfg.conv) cfg.kern npix (gridCoord cfg npix uvw r ch 0))
    (hv : TapsNonneg (gatherTapOf cfg.conv) cfg.kern npix (gridCoord cfg npix uvw r ch 1)) (w : ℝ)
    (hw : w = tapSum (gatherTapOf cfg.conv) cfg.kern npix (gridCoord cfg npix uvw r ch 0) (gridCoord cfg npix uvw r ch 1))
    (hw0 : 0 < w) :
    ‖d.vis r ch i - k i * direct npix image (gridCoord cfg npix uvw r ch 0) (gridCoord cfg npix uvw r ch 1)‖ ≤
      ‖k i‖ * ∑ y ∈ range npix, ∑ x ∈ range npix, ‖image y x‖ *
        (phaseBound cfg.kern.W npix (fromCentre npix y) + phaseBound cfg.kern.W npix (fromCentre npix x) +
          1 / 100000000 / w) := by
  rw [C184_degrid cfg c st hpair hs hb hp gb npix nx nrow uc uvw G d h r ch hr hch image hG hon k hk i, ← hw]
  set su := gridCoord cfg npix uvw r ch 0
  set sv := gridCoord cfg npix uvw r ch 1
  set tap := gatherTapOf cfg.conv
  have hW : 0 < w + 1 / 100000000 := by positivity
  have hWc : ((w + 1 / 100000000 : ℝ) : ℂ) ≠ 0 := by exact_mod_cast hW.ne'
  rw [← mul_sub, norm_mul]
  refine mul_le_mul_of_nonneg_left ?_ (norm_nonneg _)
  unfold direct
  rw [sum_div, ← sum_sub_distrib]
  refine (norm_sum_le _ _).trans (sum_le_sum fun y _ => ?_)
  rw [sum_div, ← sum_sub_distrib]
  refine (norm_sum_le _ _).trans (sum_le_sum fun x _ => ?_)
  set T := taper tap cfg.kern npix sv (fromCentre npix y) * taper tap cfg.kern npix su (fromCentre npix x) with hT
  set P := wave npix sv (fromCentre npix y) * wave npix su (fromCentre npix x) with hP
  have hPn : ‖P‖ = 1 := by rw [hP, norm_mul, norm_wave, norm_wave, one_mul]
  have e : image y x * T * P / ((w + 1 / 100000000 : ℝ) : ℂ) - image y x * P =
      image y x * P * (((T - (w : ℂ)) - ((1 / 100000000 : ℝ) : ℂ)) / ((w + 1 / 100000000 : ℝ) : ℂ)) := by
    have : ((w + 1 / 100000000 : ℝ) : ℂ) = (w : ℂ) + ((1 / 100000000 : ℝ) : ℂ) := Complex.ofReal_add _ _
    rw [this] at hWc ⊢
    field_simp
    ring
  rw [e, norm_mul, norm_mul, hPn, mul_one, norm_div, Complex.norm_real, Real.norm_of_nonneg hW.le]
  refine mul_le_mul_of_nonneg_left ?_ (norm_nonneg _)
  have h1 := taper_close tap cfg.kern npix su sv hu hv (fromCentre npix y) (fromCentre npix x)
  rw [← hw, ← hT] at h1
  have hb1 := phaseBound_nonneg cfg.kern.W npix (fromCentre npix y)
  have hb2 := phaseBound_nonneg cfg.kern.W npix (fromCentre npix x)
  set B := phaseBound cfg.kern.W npix (fromCentre npix y) + phaseBound cfg.kern.W npix (fromCentre npix x) with hB
  have h2 : ‖T - (w : ℂ) - ((1 / 100000000 : ℝ) : ℂ)‖ ≤ w * B + 1 / 100000000 := by
    refine (norm_sub_le _ _).trans (add_le_add h1 ?_)
    rw [Complex.norm_real, Real.norm_of_nonneg (by positivity)]
  rw [div_le_iff₀ hW]
  refine h2.trans ?_
  have h3 : (1 : ℝ) / 100000000 / w * w = 1 / 100000000 := div_mul_cancel₀ _ hw0.ne'
  have h4 : 0 ≤ (1 : ℝ) / 100000000 / w := by positivity
  nlinarith [add_nonneg hb1 hb2]

include hpair hs hb hp h hr hch hG hon hk in
/-- **C184** The same against `im_to_vis` of the pixels, for a baseline without `w`. -/
theorem C184_im_to_vis (i : Nat) (hn : 0 < npix)
    (hu : TapsNonneg (gatherTapOf cfg.conv) cfg.kern npix (gridCoord cfg npix uvw r ch 0))
    (hv : TapsNonneg (gatherTapOf cfg.conv) cfg.kern npix (gridCoord cfg npix uvw r ch 1)) (w : ℝ)
    (hw : w = tapSum (gatherTapOf cfg.conv) cfg.kern npix (gridCoord cfg npix uvw r ch 0) (gridCoord cfg npix uvw r ch 1))
    (hw0 : 0 < w) (hflat : uvw (3 * r + 2) = 0) (lm : Nat → ℝ × ℝ)
    (hlm : ∀ y < npix, ∀ x < npix, lm (y * npix + x) = (pixelCosine cfg npix x, pixelCosine cfg npix y))
    (hdisc : ∀ s < npix * npix, (lm s).1 ^ 2 + (lm s).2 ^ 2 ≤ 1) (V : Nat → Nat → Nat → ℂ)
    (hV : Dft.imToVis nrow (npix * npix) cfg.nlam 1 (fun s _ _ => image (s / npix) (s % npix))
      (fun r => (uvw (3 * r), uvw (3 * r + 1), uvw (3 * r + 2))) lm (fun ch => 299792458 / cfg.wavelengths ch) "fourier" = .ok V) :
    ‖d.vis r ch i - k i * V r ch 0‖ ≤
      ‖k i‖ * ∑ y ∈ range npix, ∑ x ∈ range npix, ‖image y x‖ *
        (phaseBound cfg.kern.W npix (fromCentre npix y) + phaseBound cfg.kern.W npix (fromCentre npix x) +
          1 / 100000000 / w) := by
  obtain ⟨V', hV', hval⟩ := Dft.C86_im_to_vis nrow (npix * npix) cfg.nlam 1 (fun s _ _ => image (s / npix) (s % npix))
    (fun r => (uvw (3 * r), uvw (3 * r + 1), uvw (3 * r + 2))) lm (fun ch => 299792458 / cfg.wavelengths ch) "fourier" (-1)
    (Or.inl ⟨rfl, rfl⟩) hdisc
  rw [hV] at hV'
  cases hV'
  have e : V r ch 0 = direct npix image (gridCoord cfg npix uvw r ch 0) (gridCoord cfg npix uvw r ch 1) := by
    rw [hval r hr ch hch 0 Nat.one_pos, direct, sum_rows]
    refine sum_congr rfl fun y hy => sum_congr rfl fun x hx => ?_
    rw [mem_range] at hy hx
    dsimp only
    rw [Nat.mul_comm y npix, Nat.mul_add_div hn, Nat.div_eq_of_lt hx, Nat.add_zero, Nat.mul_add_mod, Nat.mod_eq_of_lt hx,
      Nat.mul_comm npix y, hlm y hy x hx, hflat, C184_directions cfg npix hn, mul_comm, Nat.add_zero]
  rw [e]
  exact C184_degrid_error cfg c st hpair hs hb hp gb npix nx nrow uc uvw G d h r ch hr hch image hG hon k hk i hu hv w hw hw0

end degrid

private theorem taps_wave_conj (tap : Kern → Nat → ℝ → Nat → ℝ) (k : Kern) (npix : Nat) (s : ℝ) (h : OnGrid k npix s) (x : ℤ) :
    ∑ u ∈ range npix, (tapAt tap k npix s (u : ℤ) : ℂ) * (starRingEnd ℂ) (wave npix (fromCentre npix u) x) =
      (starRingEnd ℂ) (wave npix s x * taper tap k npix s x) := by
  rw [← taps_wave tap k npix s h x, map_sum]
  exact sum_congr rfl fun u _ => by rw [map_mul, Complex.conj_ofReal]

/-- The dirty image by direct transform, not normalised: every sample of the band, weighted with the sum of its taps and turned
by the conjugate of its wave. -/
noncomputable def dirtyDirect (cfg : Cfg) (npix nrow nchan : Nat) (uvw : Nat → ℝ) (S : Nat → Nat → ℂ) (b y x : Nat)
    (w : Nat → Nat → ℂ) : ℂ :=
  ∑ r ∈ range nrow, ∑ c ∈ range nchan, if cfg.chanmap c = b then w r c * S r c *
    (starRingEnd ℂ) (wave npix (gridCoord cfg npix uvw r c 1) (fromCentre npix y) *
      wave npix (gridCoord cfg npix uvw r c 0) (fromCentre npix x)) else 0

section grid
variable (cfg : Cfg) (hconv : cfg.conv ∈ oneDim) (hb : cfg.baseline = "None") (hp : cfg.phase = "None")
  (npix nrow nchan ur uc : Nat) (uvw : Nat → ℝ) (vis : Nat → Nat → Nat → ℂ) (junk : ℤ → ℂ) (s : GridState)
  (h : gridder cfg npix nrow nchan ur uc uvw vis false junk = .ok s) (b : Nat) (hband : b < nband cfg.nmap cfg.chanmap)
  (hon : ∀ r < nrow, ∀ c < nchan, cfg.chanmap c = b →
    OnGrid cfg.kern npix (gridCoord cfg npix uvw r c 0) ∧ OnGrid cfg.kern npix (gridCoord cfg npix uvw r c 1))

include hconv hb hp h hband hon in
/-- **C184** The transform of the grid of a band, at every pixel, is the direct transform of its samples with each sample
weighted by the conjugate transform of its kernel at the pixel. -/
theorem C184_grid (y x : Nat) :
    fourierInv npix (fun v u => s.grid (cell npix b v u)) y x =
      dirtyDirect cfg npix nrow nchan uvw (stokesOf cfg vis) b y x fun r c => (starRingEnd ℂ)
        (taper (scatterTapOf cfg.conv) cfg.kern npix (gridCoord cfg npix uvw r c 1) (fromCentre npix y) *
          taper (scatterTapOf cfg.conv) cfg.kern npix (gridCoord cfg npix uvw r c 0) (fromCentre npix x)) := by
  have hco : ∀ r c j, scaled cfg npix uvw r c j = gridCoord cfg npix uvw r c j := by
    intro r c j
    rw [scaled, gridCoord, rowCoord, hb, baselinePolicy, if_pos rfl, okOr]
  have hst : ∀ r c, stokesVal cfg uvw vis r c = stokesOf cfg vis r c := by
    intro r c
    rw [stokesVal, stokesOf, phased, hp, phasePolicy, if_pos rfl, okOr]
  have hcell : ∀ v ∈ range npix, ∀ u ∈ range npix, s.grid (cell npix b v u) *
      (starRingEnd ℂ) (wave npix (fromCentre npix v) (fromCentre npix y) * wave npix (fromCentre npix u) (fromCentre npix x)) =
      ∑ r ∈ range nrow, ∑ c ∈ range nchan, if cfg.chanmap c = b then stokesOf cfg vis r c *
        (((tapAt (scatterTapOf cfg.conv) cfg.kern npix (gridCoord cfg npix uvw r c 1) v : ℝ) : ℂ) *
          (starRingEnd ℂ) (wave npix (fromCentre npix v) (fromCentre npix y)) *
        (((tapAt (scatterTapOf cfg.conv) cfg.kern npix (gridCoord cfg npix uvw r c 0) u : ℝ) : ℂ) *
          (starRingEnd ℂ) (wave npix (fromCentre npix u) (fromCentre npix x)))) else 0 := by
    intro v hv u hu
    rw [mem_range] at hv hu
    have hin : inGrid npix (v : ℤ) (u : ℤ) := ⟨by omega, by exact_mod_cast hv, by omega, by exact_mod_cast hu⟩
    have hd : divisor cfg npix nrow nchan uvw false b = 1 := by simp [divisor]
    rw [(gridder_value h).1 b v u hband hin, hd, div_one, sum_mul]
    refine sum_congr rfl fun r _ => ?_
    rw [sum_mul]
    refine sum_congr rfl fun c _ => ?_
    rw [kappa_cell hconv _ _ _ _ _ _ _ _ hin, hco, hco, hst]
    split_ifs
    · rw [map_mul, Complex.ofReal_mul]
      ring
    · simp
  unfold fourierInv dirtyDirect
  rw [sum_congr rfl fun v hv => sum_congr rfl fun u hu => hcell v hv u hu]
  rw [sum_congr rfl fun v _ => sum_comm, sum_comm]
  refine sum_congr rfl fun r hr => ?_
  rw [sum_congr rfl fun v _ => sum_comm, sum_comm]
  refine sum_congr rfl fun c hc => ?_
  split_ifs with hcb
  · obtain ⟨o0, o1⟩ := hon r (mem_range.1 hr) c (mem_range.1 hc) hcb
    simp only [← mul_sum, ← sum_mul]
    rw [taps_wave_conj _ _ _ _ o0, taps_wave_conj _ _ _ _ o1]
    simp only [map_mul]
    ring
  · simp

include hconv hb hp h hband hon in
/-- **C184** With taps that are not negative, the transform of the grid differs from the direct transform of the samples, weighted
with the sums `w` of their taps, by at most the weight and modulus of each sample times the phase error of the pixel. -/
theorem C184_grid_error (y x : Nat)
    (hnn : ∀ r < nrow, ∀ c < nchan, cfg.chanmap c = b →
      TapsNonneg (scatterTapOf cfg.conv) cfg.kern npix (gridCoord cfg npix uvw r c 0) ∧
      TapsNonneg (scatterTapOf cfg.conv) cfg.kern npix (gridCoord cfg npix uvw r c 1)) (w : Nat → Nat → ℝ)
    (hw : w = fun r c => tapSum (scatterTapOf cfg.conv) cfg.kern npix (gridCoord cfg npix uvw r c 0) (gridCoord cfg npix uvw r c 1)) :
    ‖fourierInv npix (fun v u => s.grid (cell npix b v u)) y x -
        dirtyDirect cfg npix nrow nchan uvw (stokesOf cfg vis) b y x fun r c => (w r c : ℂ)‖ ≤
      (∑ r ∈ range nrow, ∑ c ∈ range nchan, if cfg.chanmap c = b then w r c * ‖stokesOf cfg vis r c‖ else 0) *
        (phaseBound cfg.kern.W npix (fromCentre npix y) + phaseBound cfg.kern.W npix (fromCentre npix x)) := by
  rw [C184_grid cfg hconv hb hp npix nrow nchan ur uc uvw vis junk s h b hband hon y x]
  unfold dirtyDirect
  rw [← sum_sub_distrib, sum_mul]
  refine (norm_sum_le _ _).trans (sum_le_sum fun r hr => ?_)
  rw [← sum_sub_distrib, sum_mul]
  refine (norm_sum_le _ _).trans (sum_le_sum fun c hc => ?_)
  split_ifs with hcb
  · obtain ⟨n0, n1⟩ := hnn r (mem_range.1 hr) c (mem_range.1 hc) hcb
    have h1 := taper_close (scatterTapOf cfg.conv) cfg.kern npix _ _ n0 n1 (fromCentre npix y) (fromCentre npix x)
    rw [← sub_mul, ← sub_mul, norm_mul, norm_mul, Complex.norm_conj, norm_mul, norm_wave, norm_wave, one_mul, mul_one]
    have e : ∀ z : ℂ, ‖(starRingEnd ℂ) z - (w r c : ℂ)‖ = ‖z - (w r c : ℂ)‖ := by
      intro z
      rw [← Complex.norm_conj, map_sub, Complex.conj_conj, Complex.conj_ofReal]
    rw [e, hw]
    calc _ ≤ _ := mul_le_mul_of_nonneg_right h1 (norm_nonneg _)
      _ = _ := by ring
  · simp

include hconv hb hp h hband hon in
/-- **C184** At the centre of the image the two transforms are equal. -/
theorem C184_centre
    (hnn : ∀ r < nrow, ∀ c < nchan, cfg.chanmap c = b →
      TapsNonneg (scatterTapOf cfg.conv) cfg.kern npix (gridCoord cfg npix uvw r c 0) ∧
      TapsNonneg (scatterTapOf cfg.conv) cfg.kern npix (gridCoord cfg npix uvw r c 1)) :
    fourierInv npix (fun v u => s.grid (cell npix b v u)) (npix / 2) (npix / 2) =
      dirtyDirect cfg npix nrow nchan uvw (stokesOf cfg vis) b (npix / 2) (npix / 2) fun r c =>
        ((tapSum (scatterTapOf cfg.conv) cfg.kern npix (gridCoord cfg npix uvw r c 0) (gridCoord cfg npix uvw r c 1) : ℝ) : ℂ) := by
  have h1 := C184_grid_error cfg hconv hb hp npix nrow nchan ur uc uvw vis junk s h b hband hon (npix / 2) (npix / 2) hnn _ rfl
  have h0 : phaseBound cfg.kern.W npix (fromCentre npix (npix / 2)) = 0 := by simp [phaseBound, fromCentre]
  rw [h0, add_zero, mul_zero] at h1
  exact sub_eq_zero.1 (norm_le_zero_iff.1 h1)

end grid

/-- Non-vacuity: a sample in the middle of a grid of eight cells with one tap, whose tap is on the grid and not negative and sums
to one; the transform of an image that is not zero; and a call that succeeds. -/
example : GridOk (unitCfg 8 "None" "I_FROM_XXYY" "conv_1d_axisymmetric_packed_scatter" (1, 1)) 1 1 1 3 ∧
    OnGrid unitKern 8 0 ∧ TapsNonneg (scatterTapOf "conv_1d_axisymmetric_packed_scatter") unitKern 8 0 ∧
    fourier 8 (fun y x => if y = 4 ∧ x = 4 then 1 else 0) 0 0 = 1 := by
  refine ⟨⟨⟨_, rfl⟩, ⟨_, rfl⟩, rfl, rfl, by decide, rfl, rfl, rfl⟩, ?_, ?_, ?_⟩
  · intro t ht
    have hd : disc 8 0 = 4 := by have := disc_int 8 0; simpa using this
    have : unitKern.W = 1 := rfl
    unfold lookup
    rw [hd]
    rw [this] at ht ⊢
    omega
  · intro t _
    have h : scatterTapOf "conv_1d_axisymmetric_packed_scatter" unitKern 8 0 t = 1 := by
      unfold scatterTapOf
      split_ifs <;> rfl
    rw [h]
    exact zero_le_one
  · unfold fourier
    rw [sum_eq_single 4 (by intro y _ hy; simp [hy]) (by simp), sum_eq_single 4 (by intro x _ hx; simp [hx]) (by simp)]
    simp [wave, fromCentre]

end Verif.Gridding
