/-
C137: symmetries of the direct Fourier transforms and the dirty image of a point source. C138: the ways of predicting a
list of sources agree.
-/
import Verif.Dft.Props
import Verif.Rime.Props
import Verif.Rime.PropsTerms
import Verif.ModelData.SpectralProps

set_option autoImplicit false

namespace Verif.Dft

open Verif.Rime (twoPiOverC delay)
open Finset (range)
open scoped ComplexConjugate

private theorem delay_neg (sg l m u v w nu : ℝ) : delay sg l m (-u) (-v) (-w) nu = delay (-sg) l m u v w nu := by
  unfold delay
  congr 3
  ring

private theorem delay_star (sg l m u v w nu : ℝ) : conj (delay sg l m u v w nu) = delay (-sg) l m u v w nu := by
  unfold delay
  rw [← Complex.exp_conj, map_mul, Complex.conj_I, Complex.conj_ofReal]
  congr 1
  push_cast
  ring

private theorem delay_mul_neg (sg l m u v w nu : ℝ) : delay (-sg) l m u v w nu * delay sg l m u v w nu = 1 := by
  unfold delay
  rw [← Complex.exp_add, ← Complex.exp_zero]
  congr 1
  push_cast
  ring

/-! ### C137 -/

/-- The reversed baseline. -/
def neg3 (b : ℝ × ℝ × ℝ) : ℝ × ℝ × ℝ := (-b.1, -b.2.1, -b.2.2)

/-- The baseline times `a`. -/
def scale3 (a : ℝ) (b : ℝ × ℝ × ℝ) : ℝ × ℝ × ℝ := (a * b.1, a * b.2.1, a * b.2.2)

/-- C137. The visibilities of a real image on reversed baselines are the conjugates. -/
theorem C137_conjugate (nrow nsrc nchan ncorr : Nat) (image : Nat → Nat → Nat → ℝ) (uvw : Nat → ℝ × ℝ × ℝ)
    (lm : Nat → ℝ × ℝ) (freq : Nat → ℝ) (convention : String) (sg : ℝ) (hsg : Sign convention sg)
    (hlm : ∀ s < nsrc, (lm s).1 ^ 2 + (lm s).2 ^ 2 ≤ 1) :
    ∃ V V', imToVis nrow nsrc nchan ncorr (fun s f c => (image s f c : ℂ)) uvw lm freq convention = .ok V ∧
      imToVis nrow nsrc nchan ncorr (fun s f c => (image s f c : ℂ)) (fun r => neg3 (uvw r)) lm freq convention = .ok V' ∧
      ∀ r < nrow, ∀ f < nchan, ∀ c < ncorr, V' r f c = conj (V r f c) := by
  obtain ⟨V, e, h⟩ := C86_im_to_vis nrow nsrc nchan ncorr (fun s f c => (image s f c : ℂ)) uvw lm freq convention sg hsg hlm
  obtain ⟨V', e', h'⟩ := C86_im_to_vis nrow nsrc nchan ncorr (fun s f c => (image s f c : ℂ)) (fun r => neg3 (uvw r)) lm freq
    convention sg hsg hlm
  refine ⟨V, V', e, e', fun r hr f hf c hc => ?_⟩
  rw [h r hr f hf c hc, h' r hr f hf c hc, map_sum]
  refine Finset.sum_congr rfl fun s _ => ?_
  simp only [neg3]
  rw [delay_neg, map_mul, delay_star, Complex.conj_ofReal]

/-- C137. The two conventions differ by the direction of the baselines, in both transforms. -/
theorem C137_conventions (nrow nsrc nchan ncorr : Nat) (image vis : Nat → Nat → Nat → ℂ) (uvw : Nat → ℝ × ℝ × ℝ)
    (lm : Nat → ℝ × ℝ) (freq : Nat → ℝ) (flags : Nat → Nat → Nat → Bool)
    (hlm : ∀ s < nsrc, (lm s).1 ^ 2 + (lm s).2 ^ 2 ≤ 1) :
    (∃ V V', imToVis nrow nsrc nchan ncorr image uvw lm freq "casa" = .ok V ∧
      imToVis nrow nsrc nchan ncorr image (fun r => neg3 (uvw r)) lm freq "fourier" = .ok V' ∧
      ∀ r < nrow, ∀ f < nchan, ∀ c < ncorr, V' r f c = V r f c) ∧
    (∃ I I', visToIm nrow nsrc nchan ncorr vis uvw lm freq flags "casa" = .ok I ∧
      visToIm nrow nsrc nchan ncorr vis (fun r => neg3 (uvw r)) lm freq flags "fourier" = .ok I' ∧
      ∀ s < nsrc, ∀ f < nchan, ∀ c < ncorr, I' s f c = I s f c) := by
  have s1 : Sign "casa" 1 := Or.inr ⟨rfl, rfl⟩
  have s2 : Sign "fourier" (-1) := Or.inl ⟨rfl, rfl⟩
  constructor
  · obtain ⟨V, e, h⟩ := C86_im_to_vis nrow nsrc nchan ncorr image uvw lm freq _ _ s1 hlm
    obtain ⟨V', e', h'⟩ := C86_im_to_vis nrow nsrc nchan ncorr image (fun r => neg3 (uvw r)) lm freq _ _ s2 hlm
    refine ⟨V, V', e, e', fun r hr f hf c hc => ?_⟩
    rw [h r hr f hf c hc, h' r hr f hf c hc]
    simp only [neg3, delay_neg, neg_neg]
  · obtain ⟨V, e, h⟩ := C86_vis_to_im nrow nsrc nchan ncorr vis uvw lm freq flags _ _ s1 hlm
    obtain ⟨V', e', h'⟩ := C86_vis_to_im nrow nsrc nchan ncorr vis (fun r => neg3 (uvw r)) lm freq flags _ _ s2 hlm
    refine ⟨V, V', e, e', fun r hr f hf c hc => ?_⟩
    rw [h r hr f hf c hc, h' r hr f hf c hc]
    simp only [neg3, delay_neg, neg_neg]

/-- C137. Only baselines in wavelengths matter: baselines `a` times as long at frequencies `a` times lower give the same
visibilities. -/
theorem C137_wavelengths (nrow nsrc nchan ncorr : Nat) (image : Nat → Nat → Nat → ℂ) (uvw : Nat → ℝ × ℝ × ℝ)
    (lm : Nat → ℝ × ℝ) (freq : Nat → ℝ) (convention : String) (sg : ℝ) (hsg : Sign convention sg)
    (hlm : ∀ s < nsrc, (lm s).1 ^ 2 + (lm s).2 ^ 2 ≤ 1) (a : ℝ) (ha : a ≠ 0) :
    ∃ V V', imToVis nrow nsrc nchan ncorr image uvw lm freq convention = .ok V ∧
      imToVis nrow nsrc nchan ncorr image (fun r => scale3 a (uvw r)) lm (fun f => freq f / a) convention = .ok V' ∧
      ∀ r < nrow, ∀ f < nchan, ∀ c < ncorr, V' r f c = V r f c := by
  obtain ⟨V, e, h⟩ := C86_im_to_vis nrow nsrc nchan ncorr image uvw lm freq convention sg hsg hlm
  obtain ⟨V', e', h'⟩ := C86_im_to_vis nrow nsrc nchan ncorr image (fun r => scale3 a (uvw r)) lm (fun f => freq f / a)
    convention sg hsg hlm
  refine ⟨V, V', e, e', fun r hr f hf c hc => ?_⟩
  rw [h r hr f hf c hc, h' r hr f hf c hc]
  refine Finset.sum_congr rfl fun s _ => ?_
  congr 1
  unfold delay scale3
  congr 3
  field_simp

/-- C137. The order of the sources does not matter to `im_to_vis`, that of the rows not to `vis_to_im`. -/
theorem C137_order (nrow nsrc nchan ncorr : Nat) (image vis : Nat → Nat → Nat → ℂ) (uvw : Nat → ℝ × ℝ × ℝ)
    (lm : Nat → ℝ × ℝ) (freq : Nat → ℝ) (flags : Nat → Nat → Nat → Bool) (convention : String) (sg : ℝ)
    (hsg : Sign convention sg) (hlm : ∀ s < nsrc, (lm s).1 ^ 2 + (lm s).2 ^ 2 ≤ 1) (σ τ : Nat → Nat)
    (hσ : Set.BijOn σ (Set.Iio nsrc) (Set.Iio nsrc)) (hτ : Set.BijOn τ (Set.Iio nrow) (Set.Iio nrow)) :
    (∃ V V', imToVis nrow nsrc nchan ncorr image uvw lm freq convention = .ok V ∧
      imToVis nrow nsrc nchan ncorr (fun s => image (σ s)) uvw (fun s => lm (σ s)) freq convention = .ok V' ∧
      ∀ r < nrow, ∀ f < nchan, ∀ c < ncorr, V' r f c = V r f c) ∧
    (∃ I I', visToIm nrow nsrc nchan ncorr vis uvw lm freq flags convention = .ok I ∧
      visToIm nrow nsrc nchan ncorr (fun r => vis (τ r)) (fun r => uvw (τ r)) lm freq (fun r => flags (τ r)) convention =
        .ok I' ∧
      ∀ s < nsrc, ∀ f < nchan, ∀ c < ncorr, I' s f c = I s f c) := by
  have perm : ∀ {M : Type} [AddCommMonoid M] (n : Nat) (ρ : Nat → Nat), Set.BijOn ρ (Set.Iio n) (Set.Iio n) →
      ∀ g : Nat → M, ∑ s ∈ range n, g (ρ s) = ∑ s ∈ range n, g s := by
    intro M _ n ρ hρ g
    refine Finset.sum_nbij ρ (fun s hs => ?_) (fun s hs t ht e => ?_) (fun s hs => ?_) (fun _ _ => rfl)
    · exact Finset.mem_range.2 (hρ.mapsTo (Finset.mem_range.1 hs))
    · exact hρ.injOn (by simpa using hs) (by simpa using ht) e
    · obtain ⟨t, ht, e⟩ := hρ.surjOn (show s ∈ Set.Iio n by simpa using hs)
      exact ⟨t, by simpa using ht, e⟩
  constructor
  · obtain ⟨V, e, h⟩ := C86_im_to_vis nrow nsrc nchan ncorr image uvw lm freq _ _ hsg hlm
    obtain ⟨V', e', h'⟩ := C86_im_to_vis nrow nsrc nchan ncorr (fun s => image (σ s)) uvw (fun s => lm (σ s)) freq _ _ hsg
      (fun s hs => hlm _ (hσ.mapsTo hs))
    refine ⟨V, V', e, e', fun r hr f hf c hc => ?_⟩
    rw [h r hr f hf c hc, h' r hr f hf c hc]
    exact perm nsrc σ hσ fun s => delay sg (lm s).1 (lm s).2 (uvw r).1 (uvw r).2.1 (uvw r).2.2 (freq f) * image s f c
  · obtain ⟨V, e, h⟩ := C86_vis_to_im nrow nsrc nchan ncorr vis uvw lm freq flags _ _ hsg hlm
    obtain ⟨V', e', h'⟩ := C86_vis_to_im nrow nsrc nchan ncorr (fun r => vis (τ r)) (fun r => uvw (τ r)) lm freq
      (fun r => flags (τ r)) _ _ hsg hlm
    refine ⟨V, V', e, e', fun s hs f hf c hc => ?_⟩
    rw [h s hs f hf c hc, h' s hs f hf c hc]
    classical
    exact perm nrow τ hτ fun r => if Unflagged ncorr flags r f then
      (delay (-sg) (lm s).1 (lm s).2 (uvw r).1 (uvw r).2.1 (uvw r).2.2 (freq f) * vis r f c).re else 0

open Classical in
/-- C137. The dirty image of a point source: imaging the visibilities of a single source `s0` of flux `F` gives, at the
source, its flux times the number of unflagged rows, and nowhere more than that in absolute value. -/
theorem C137_point (nrow nsrc nchan ncorr : Nat) (s0 : Nat) (hs0 : s0 < nsrc) (F : Nat → Nat → ℝ)
    (uvw : Nat → ℝ × ℝ × ℝ) (lm : Nat → ℝ × ℝ) (freq : Nat → ℝ) (flags : Nat → Nat → Nat → Bool) (convention : String)
    (sg : ℝ) (hsg : Sign convention sg) (hlm : ∀ s < nsrc, (lm s).1 ^ 2 + (lm s).2 ^ 2 ≤ 1) :
    ∃ V I, imToVis nrow nsrc nchan ncorr (fun s f c => if s = s0 then (F f c : ℂ) else 0) uvw lm freq convention = .ok V ∧
      visToIm nrow nsrc nchan ncorr V uvw lm freq flags convention = .ok I ∧
      ∀ f < nchan, ∀ c < ncorr,
        I s0 f c = F f c * ((range nrow).filter fun r => Unflagged ncorr flags r f).card ∧
        ∀ s < nsrc, |I s f c| ≤ |I s0 f c| := by
  obtain ⟨V, e, h⟩ := C86_im_to_vis nrow nsrc nchan ncorr (fun s f c => if s = s0 then (F f c : ℂ) else 0) uvw lm freq _ _
    hsg hlm
  obtain ⟨I, e', h'⟩ := C86_vis_to_im nrow nsrc nchan ncorr V uvw lm freq flags _ _ hsg hlm
  refine ⟨V, I, e, e', fun f hf c hc => ?_⟩
  have hV : ∀ r < nrow, V r f c = delay sg (lm s0).1 (lm s0).2 (uvw r).1 (uvw r).2.1 (uvw r).2.2 (freq f) * F f c := by
    intro r hr
    rw [h r hr f hf c hc, Finset.sum_eq_single s0]
    · rw [if_pos rfl]
    · intro s _ hne; rw [if_neg hne, mul_zero]
    · intro hn; exact absurd (Finset.mem_range.2 hs0) hn
  have h0 : I s0 f c = F f c * ((range nrow).filter fun r => Unflagged ncorr flags r f).card := by
    rw [h' s0 hs0 f hf c hc, ← Finset.sum_filter]
    rw [Finset.sum_congr rfl (g := fun _ => F f c)]
    · rw [Finset.sum_const, nsmul_eq_mul, mul_comm]
    · intro r hr
      rw [hV r (Finset.mem_range.1 (Finset.mem_filter.1 hr).1), ← mul_assoc, delay_mul_neg, one_mul, Complex.ofReal_re]
  refine ⟨h0, fun s hs => ?_⟩
  rw [h0, h' s hs f hf c hc, ← Finset.sum_filter]
  refine (Finset.abs_sum_le_sum_abs _ _).trans ?_
  rw [abs_mul, Nat.abs_cast, mul_comm, ← nsmul_eq_mul]
  refine Finset.sum_le_card_nsmul _ _ _ fun r hr => ?_
  rw [hV r (Finset.mem_range.1 (Finset.mem_filter.1 hr).1)]
  refine (Complex.abs_re_le_norm _).trans ?_
  rw [norm_mul, norm_mul, Rime.delay_norm, Rime.delay_norm, one_mul, one_mul, Complex.norm_real, Real.norm_eq_abs]

/-- Sources inside the unit disc and a permutation of them. -/
example : (∀ s < 2, ((fun s => if s = 0 then (0.1, 0.2) else (0, -0.3) : Nat → ℝ × ℝ) s).1 ^ 2 +
    ((fun s => if s = 0 then (0.1, 0.2) else (0, -0.3) : Nat → ℝ × ℝ) s).2 ^ 2 ≤ 1) ∧
    Set.BijOn (fun s => 1 - s) (Set.Iio 2) (Set.Iio 2) := by
  refine ⟨fun s _ => ?_, fun s hs => ?_, fun s hs t ht e => ?_, fun s hs => ⟨1 - s, ?_, ?_⟩⟩
  · by_cases h : s = 0 <;> simp [h] <;> norm_num
  all_goals simp only [Set.mem_Iio] at *
  all_goals omega

/-! ### C138 -/

/-- C138. A list of point and Gaussian sources: adding up flux times `phase_delay` (convention "casa") times `gaussian` with
`predict_vis` gives what `wsclean_predict` gives. -/
theorem C138_wsclean_predict (nsrc nrow nchan : Nat) (time ant1 ant2 : Nat → Nat) (hn : 0 < nrow)
    (src : Nat → Rime.WsSource) (uvw : Nat → ℝ × ℝ × ℝ) (freq : Nat → ℝ) (k : Nat → Nat → Nat → ℂ)
    (ht : ∀ s < nsrc, (src s).sourceType = "POINT" ∨ (src s).sourceType = "GAUSSIAN")
    (hg : ∀ s < nsrc, (src s).emaj = 0 → (src s).emin = 0)
    (hk : Rime.phaseDelay (fun s => ((src s).l, (src s).m)) uvw freq "casa" = .ok k)
    (coh : Nat → Nat → Nat → Nat → ℂ)
    (hcoh : coh = fun s r f _ => ((src s).spectrum f : ℂ) * k s r f * (if (src s).sourceType = "GAUSSIAN" then
      (ModelData.gaussianShape (uvw r).1 (uvw r).2.1 (uvw r).2.2 (freq f) (src s).emaj (src s).emin (src s).angle : ℂ)
      else 1)) :
    ∃ vis, Rime.predictVis (Rime.diagKernel 1) nsrc nrow nchan time ant1 ant2 ⟨none, some coh, none, none⟩ = .ok vis ∧
      ∀ r < nrow, ∀ f < nchan, Rime.wsPredictCell (uvw r) (freq f) f src nsrc = .ok (vis r f 0) := by
  obtain ⟨tmin, hm⟩ := Rime.exists_min time hn
  obtain ⟨vis, e, h⟩ := Rime.C34_predict_diag 1 nsrc nrow nchan time ant1 ant2 tmin hm ⟨none, some coh, none, none⟩
    (Or.inr (Or.inl rfl))
  refine ⟨vis, e, fun r hr f hf => ?_⟩
  rw [Rime.C40_sum (uvw r) (freq f) f src nsrc ht hg, h r hr f hf 0 one_pos]
  obtain ⟨_, ⟨k', hk', ek⟩, _⟩ := Rime.C31_value (fun s => ((src s).l, (src s).m)) uvw freq
  rw [hk'] at hk
  obtain rfl := Except.ok.inj hk
  refine congrArg Except.ok ?_
  simp only [Rime.rime, Option.map_some, Option.map_none, Option.elim, Option.isNone_none, Option.isNone_some,
    Option.getD_none, star_one, mul_one, one_mul, zero_add]
  rw [if_neg (by simp)]
  refine Finset.sum_congr rfl fun s hs => ?_
  rw [hcoh]
  simp only [Rime.sourceVis, ek]
  congr 1
  split
  · rw [ModelData.C50_value _ _ _ _ _ _ _ (hg s (Finset.mem_range.1 hs))]
  · rfl

/-- C138. For point sources alone, `im_to_vis` (convention "casa") on the fluxes gives what `wsclean_predict` gives. -/
theorem C138_im_to_vis (nsrc nrow nchan : Nat) (src : Nat → Rime.WsSource) (uvw : Nat → ℝ × ℝ × ℝ) (freq : Nat → ℝ)
    (ht : ∀ s < nsrc, (src s).sourceType = "POINT") (hg : ∀ s < nsrc, (src s).emaj = 0 → (src s).emin = 0)
    (hlm : ∀ s < nsrc, (src s).l ^ 2 + (src s).m ^ 2 ≤ 1) :
    ∃ V, imToVis nrow nsrc nchan 1 (fun s f _ => ((src s).spectrum f : ℂ)) uvw (fun s => ((src s).l, (src s).m)) freq
        "casa" = .ok V ∧
      ∀ r < nrow, ∀ f < nchan, Rime.wsPredictCell (uvw r) (freq f) f src nsrc = .ok (V r f 0) := by
  obtain ⟨V, e, h⟩ := C86_im_to_vis nrow nsrc nchan 1 (fun s f _ => ((src s).spectrum f : ℂ)) uvw
    (fun s => ((src s).l, (src s).m)) freq _ _ (Or.inr ⟨rfl, rfl⟩) hlm
  refine ⟨V, e, fun r hr f hf => ?_⟩
  rw [Rime.C40_sum (uvw r) (freq f) f src nsrc (fun s hs => Or.inl (ht s hs)) hg, h r hr f hf 0 one_pos]
  refine congrArg Except.ok (Finset.sum_congr rfl fun s hs => ?_)
  unfold Rime.sourceVis
  rw [if_neg (by rw [ht s (Finset.mem_range.1 hs)]; decide), mul_one, mul_comm]

/-- C138. `wsclean_predict`: the visibility of a reversed baseline is the conjugate, on a baseline of length zero it is the
total flux, and no visibility exceeds the total of the absolute fluxes. -/
theorem C138_wsclean_symmetry (nsrc : Nat) (src : Nat → Rime.WsSource) (uvw : ℝ × ℝ × ℝ) (freq : ℝ) (f : Nat)
    (ht : ∀ s < nsrc, (src s).sourceType = "POINT" ∨ (src s).sourceType = "GAUSSIAN")
    (hg : ∀ s < nsrc, (src s).emaj = 0 → (src s).emin = 0) :
    ∃ v, Rime.wsPredictCell uvw freq f src nsrc = .ok v ∧
      Rime.wsPredictCell (neg3 uvw) freq f src nsrc = .ok (conj v) ∧
      Rime.wsPredictCell (0, 0, 0) freq f src nsrc = .ok ((∑ s ∈ range nsrc, (src s).spectrum f : ℝ) : ℂ) ∧
      ‖v‖ ≤ ∑ s ∈ range nsrc, |(src s).spectrum f| := by
  refine ⟨_, Rime.C40_sum uvw freq f src nsrc ht hg, ?_, ?_, ?_⟩
  · rw [Rime.C40_sum (neg3 uvw) freq f src nsrc ht hg, map_sum]
    refine congrArg Except.ok (Finset.sum_congr rfl fun s hs => ?_)
    unfold Rime.sourceVis
    rw [map_mul, map_mul, delay_star, Complex.conj_ofReal]
    simp only [neg3, delay_neg]
    congr 1
    split
    · rw [Complex.conj_ofReal]
      congr 1
      simp only [Rime.gaussianFactor]
      congr 2
      ring
    · rw [map_one]
  · rw [Rime.C40_sum (0, 0, 0) freq f src nsrc ht hg]
    refine congrArg Except.ok ?_
    rw [Complex.ofReal_sum]
    refine Finset.sum_congr rfl fun s hs => ?_
    simp [Rime.sourceVis, delay, Rime.gaussianFactor]
  · refine (norm_sum_le _ _).trans (Finset.sum_le_sum fun s _ => ?_)
    unfold Rime.sourceVis
    rw [norm_mul, norm_mul, Rime.delay_norm, mul_one, Complex.norm_real, Real.norm_eq_abs]
    refine mul_le_of_le_one_right (abs_nonneg _) ?_
    split
    · rw [Complex.norm_real, Real.norm_eq_abs, Rime.gaussianFactor, abs_of_pos (Real.exp_pos _), Real.exp_le_one_iff,
        neg_nonpos]
      have : (0 : ℝ) < Real.log 2 := Real.log_pos (by norm_num)
      positivity
    · rw [norm_one]

/-- A point source beside a Gaussian one, as in the hypotheses. -/
example : let src : Nat → Rime.WsSource := fun s => if s = 0 then ⟨0.1, 0.2, "POINT", 0, 0, 0, fun _ => 1⟩ else
    ⟨0, 0.1, "GAUSSIAN", 0.01, 0.005, 1, fun _ => 2⟩
    (∀ s < 2, (src s).sourceType = "POINT" ∨ (src s).sourceType = "GAUSSIAN") ∧
    (∀ s < 2, (src s).emaj = 0 → (src s).emin = 0) ∧ (∀ s < 2, (src s).l ^ 2 + (src s).m ^ 2 ≤ 1) := by
  refine ⟨fun s _ => ?_, fun s _ => ?_, fun s _ => ?_⟩ <;> by_cases h : s = 0 <;> simp [h] <;> norm_num

end Verif.Dft
