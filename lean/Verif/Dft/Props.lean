/-
Properties of the direct Fourier transforms: C86 (value, linearity, adjointness, flags, conventions), C94 (dask versions).
-/
import Verif.Dft.Model
import Verif.Rime.SpecTerms
import Mathlib.Algebra.BigOperators.Ring.Finset
import Mathlib.Data.Complex.BigOperators
import Mathlib.Tactic.Ring
import Mathlib.Tactic.LinearCombination

set_option autoImplicit false

namespace Verif.Dft

open Verif.Rime (twoPiOverC delay)
open Finset (range)
open scoped ComplexConjugate

/-! ### values -/

/-- Sign of the exponent of the image to visibility transform. -/
def Sign (convention : String) (sg : ℝ) : Prop :=
  convention = "fourier" ∧ sg = -1 ∨ convention = "casa" ∧ sg = 1

private theorem exp_realPhase (sg : ℝ) (lm : ℝ × ℝ) (uvw : ℝ × ℝ × ℝ) (nu : ℝ) :
    Complex.exp (((realPhase (sg * twoPiOverC) lm uvw * nu : ℝ) : ℂ) * Complex.I) =
      delay sg lm.1 lm.2 uvw.1 uvw.2.1 uvw.2.2 nu := by
  unfold delay realPhase twoPiOverC Rime.lightspeed
  dsimp only
  rw [mul_comm Complex.I]
  congr 3
  ring

private theorem fwdConstant_sign {convention : String} {sg : ℝ} (h : Sign convention sg) :
    fwdConstant convention = .ok (sg * twoPiOverC) := by
  rcases h with ⟨rfl, rfl⟩ | ⟨rfl, rfl⟩
  · unfold fwdConstant; rw [if_pos rfl]; congr 1; ring
  · unfold fwdConstant; rw [if_neg (by decide), if_pos rfl]; congr 1; ring

private theorem bwdConstant_sign {convention : String} {sg : ℝ} (h : Sign convention sg) :
    bwdConstant convention = .ok (-sg * twoPiOverC) := by
  rcases h with ⟨rfl, rfl⟩ | ⟨rfl, rfl⟩
  · unfold bwdConstant; rw [if_pos rfl]; congr 1; ring
  · unfold bwdConstant; rw [if_neg (by decide), if_pos rfl]; congr 1; ring

private theorem fwdCell_self (image : Nat → Nat → Nat → ℂ) (rp : ℝ) (freq : Nat → ℝ) (r s nu c : Nat)
    (out : Nat → Nat → Nat → ℂ) : fwdCell image rp freq r s nu c out r nu c =
      out r nu c + Complex.exp (((rp * freq nu : ℝ) : ℂ) * Complex.I) * image s nu c := by
  unfold fwdCell
  split
  · simp [upd3]
  · rename_i h
    rw [not_not.mp h, mul_zero, add_zero]

private theorem fwdCell_other (image : Nat → Nat → Nat → ℂ) (rp : ℝ) (freq : Nat → ℝ) (r s nu c r' nu' c' : Nat)
    (out : Nat → Nat → Nat → ℂ) (h : ¬ (r' = r ∧ nu' = nu ∧ c' = c)) :
    fwdCell image rp freq r s nu c out r' nu' c' = out r' nu' c' := by
  unfold fwdCell
  split
  · simp [upd3, h]
  · rfl

private theorem fwd_source (nchan ncorr : Nat) (image : Nat → Nat → Nat → ℂ) (rp : ℝ) (freq : Nat → ℝ) (r s : Nat)
    (out : Nat → Nat → Nat → ℂ) (nu c : Nat) (hnu : nu < nchan) (hc : c < ncorr) :
    (forRange nchan out fun nu out => forRange ncorr out fun c out => fwdCell image rp freq r s nu c out) r nu c =
      out r nu c + Complex.exp (((rp * freq nu : ℝ) : ℂ) * Complex.I) * image s nu c := by
  refine forRange_single (fun o : Nat → Nat → Nat → ℂ => o r nu c) nu hnu
    (fun x => x + Complex.exp (((rp * freq nu : ℝ) : ℂ) * Complex.I) * image s nu c) ?_ ?_
  · intro o
    refine forRange_single (fun o : Nat → Nat → Nat → ℂ => o r nu c) c hc
      (fun x => x + Complex.exp (((rp * freq nu : ℝ) : ℂ) * Complex.I) * image s nu c) ?_ ?_
    · intro o; exact fwdCell_self image rp freq r s nu c o
    · intro c' _ hne o; exact fwdCell_other _ _ _ _ _ _ _ _ _ _ _ (fun h => hne h.2.2.symm)
  · intro nu' _ hne o
    exact forRange_const (fun o : Nat → Nat → Nat → ℂ => o r nu c)
      (fun c' _ o => fwdCell_other _ _ _ _ _ _ _ _ _ _ _ (fun h => hne h.2.1.symm))

private theorem fwd_source_other (nchan ncorr : Nat) (image : Nat → Nat → Nat → ℂ) (rp : ℝ) (freq : Nat → ℝ)
    (r s r' : Nat) (out : Nat → Nat → Nat → ℂ) (nu c : Nat) (hr : r' ≠ r) :
    (forRange nchan out fun nu out => forRange ncorr out fun c out => fwdCell image rp freq r s nu c out) r' nu c =
      out r' nu c :=
  forRange_const (fun o : Nat → Nat → Nat → ℂ => o r' nu c) fun _ _ _ =>
    forRange_const (fun o : Nat → Nat → Nat → ℂ => o r' nu c) fun _ _ _ =>
      fwdCell_other _ _ _ _ _ _ _ _ _ _ _ (fun h => hr h.1)

/-- **C86**, value of `im_to_vis`: for the conventions `"fourier"` (sign -1) and `"casa"` (sign +1) every visibility is the
sum over sources of the brightness times the phase delay `exp(sign 2 pi i (u l + v m + w (n - 1)) nu / c)`. -/
theorem C86_im_to_vis (nrow nsrc nchan ncorr : Nat) (image : Nat → Nat → Nat → ℂ) (uvw : Nat → ℝ × ℝ × ℝ)
    (lm : Nat → ℝ × ℝ) (freq : Nat → ℝ) (convention : String) (sg : ℝ) (hsg : Sign convention sg)
    (_hlm : ∀ s < nsrc, (lm s).1 ^ 2 + (lm s).2 ^ 2 ≤ 1) :
    ∃ V, imToVis nrow nsrc nchan ncorr image uvw lm freq convention = .ok V ∧
      ∀ r < nrow, ∀ nu < nchan, ∀ c < ncorr, V r nu c = ∑ s ∈ range nsrc,
        delay sg (lm s).1 (lm s).2 (uvw r).1 (uvw r).2.1 (uvw r).2.2 (freq nu) * image s nu c := by
  unfold imToVis
  rw [fwdConstant_sign hsg]
  refine ⟨_, rfl, fun r hr nu hnu c hc => ?_⟩
  refine (forRange_single (fun o : Nat → Nat → Nat → ℂ => o r nu c) r hr
    (fun x => x + ∑ s ∈ range nsrc,
      delay sg (lm s).1 (lm s).2 (uvw r).1 (uvw r).2.1 (uvw r).2.2 (freq nu) * image s nu c) ?_ ?_).trans (zero_add _)
  · intro o
    refine forRange_sum (fun o : Nat → Nat → Nat → ℂ => o r nu c) _ fun s _ o => ?_
    rw [← exp_realPhase]
    exact fwd_source nchan ncorr image _ freq r s o nu c hnu hc
  · intro r' _ hne o
    exact forRange_const (fun o : Nat → Nat → Nat → ℂ => o r nu c) fun s _ o =>
      fwd_source_other nchan ncorr image _ freq r' s r o nu c hne.symm

/-- The sample `(r, nu)` is used: none of its correlations is flagged. -/
def Unflagged (ncorr : Nat) (flags : Nat → Nat → Nat → Bool) (r nu : Nat) : Prop := ∀ c < ncorr, flags r nu c = false

private theorem anyFlag_iff (ncorr : Nat) (flags : Nat → Nat → Nat → Bool) (r nu : Nat) :
    anyFlag ncorr (flags r nu) = true ↔ ¬ Unflagged ncorr flags r nu := by
  unfold anyFlag Unflagged
  rw [List.any_eq_true]
  constructor
  · rintro ⟨c, h1, h2⟩ h3
    rw [h3 c (List.mem_range.mp h1)] at h2
    exact absurd h2 (by decide)
  · intro h
    by_contra hn
    refine h fun c hc => ?_
    cases hf : flags r nu c with
    | false => rfl
    | true => exact absurd ⟨c, List.mem_range.mpr hc, hf⟩ hn

private theorem re_exp_mul (p : ℝ) (v : ℂ) :
    (Complex.exp ((p : ℂ) * Complex.I) * v).re = Real.cos p * v.re - Real.sin p * v.im := by
  rw [Complex.mul_re, Complex.exp_ofReal_mul_I_re, Complex.exp_ofReal_mul_I_im]

open Classical in
private theorem bwd_row (nchan ncorr : Nat) (vis : Nat → Nat → Nat → ℂ) (flags : Nat → Nat → Nat → Bool) (rp : ℝ)
    (freq : Nat → ℝ) (r s : Nat) (out : Nat → Nat → Nat → ℝ) (nu c : Nat) (hnu : nu < nchan) (hc : c < ncorr) :
    (forRange nchan out fun nu out => bwdCorrs ncorr vis flags rp freq r s nu out) s nu c = out s nu c +
      if Unflagged ncorr flags r nu then (Complex.exp (((rp * freq nu : ℝ) : ℂ) * Complex.I) * vis r nu c).re else 0 := by
  refine forRange_single (fun o : Nat → Nat → Nat → ℝ => o s nu c) nu hnu (fun x => x +
    if Unflagged ncorr flags r nu then (Complex.exp (((rp * freq nu : ℝ) : ℂ) * Complex.I) * vis r nu c).re else 0) ?_ ?_
  · intro o
    unfold bwdCorrs
    by_cases hf : Unflagged ncorr flags r nu
    · rw [if_neg (by rw [anyFlag_iff]; exact not_not.mpr hf), if_pos hf]
      refine forRange_single (fun o : Nat → Nat → Nat → ℝ => o s nu c) c hc
        (fun x => x + (Complex.exp (((rp * freq nu : ℝ) : ℂ) * Complex.I) * vis r nu c).re) ?_ ?_
      · intro o
        rw [re_exp_mul]
        simp [upd3]
      · intro c' _ hne o
        simp [upd3, hne.symm]
    · rw [if_pos ((anyFlag_iff _ _ _ _).mpr hf), if_neg hf, add_zero]
  · intro nu' _ hne o
    unfold bwdCorrs
    split
    · rfl
    · refine forRange_const (fun o : Nat → Nat → Nat → ℝ => o s nu c) fun c' _ o => ?_
      simp [upd3, hne.symm]

private theorem bwd_row_other (nchan ncorr : Nat) (vis : Nat → Nat → Nat → ℂ) (flags : Nat → Nat → Nat → Bool) (rp : ℝ)
    (freq : Nat → ℝ) (r s s' : Nat) (out : Nat → Nat → Nat → ℝ) (nu c : Nat) (hs : s' ≠ s) :
    (forRange nchan out fun nu out => bwdCorrs ncorr vis flags rp freq r s nu out) s' nu c = out s' nu c := by
  refine forRange_const (fun o : Nat → Nat → Nat → ℝ => o s' nu c) fun nu' _ o => ?_
  unfold bwdCorrs
  split
  · rfl
  · refine forRange_const (fun o : Nat → Nat → Nat → ℝ => o s' nu c) fun c' _ o => ?_
    simp [upd3, hs]

open Classical in
/-- **C86**, value of `vis_to_im`: every pixel is the sum, over the rows none of whose correlations is flagged in that
channel, of the real part of the visibility times the phase delay of the opposite sign. -/
theorem C86_vis_to_im (nrow nsrc nchan ncorr : Nat) (vis : Nat → Nat → Nat → ℂ) (uvw : Nat → ℝ × ℝ × ℝ)
    (lm : Nat → ℝ × ℝ) (freq : Nat → ℝ) (flags : Nat → Nat → Nat → Bool) (convention : String) (sg : ℝ)
    (hsg : Sign convention sg) (_hlm : ∀ s < nsrc, (lm s).1 ^ 2 + (lm s).2 ^ 2 ≤ 1) :
    ∃ I, visToIm nrow nsrc nchan ncorr vis uvw lm freq flags convention = .ok I ∧
      ∀ s < nsrc, ∀ nu < nchan, ∀ c < ncorr, I s nu c = ∑ r ∈ range nrow, if Unflagged ncorr flags r nu then
        (delay (-sg) (lm s).1 (lm s).2 (uvw r).1 (uvw r).2.1 (uvw r).2.2 (freq nu) * vis r nu c).re else 0 := by
  unfold visToIm
  rw [bwdConstant_sign hsg]
  refine ⟨_, rfl, fun s hs nu hnu c hc => ?_⟩
  refine (forRange_single (fun o : Nat → Nat → Nat → ℝ => o s nu c) s hs
    (fun x => x + ∑ r ∈ range nrow, if Unflagged ncorr flags r nu then
        (delay (-sg) (lm s).1 (lm s).2 (uvw r).1 (uvw r).2.1 (uvw r).2.2 (freq nu) * vis r nu c).re else 0) ?_ ?_).trans
    (zero_add _)
  · intro o
    refine forRange_sum (fun o : Nat → Nat → Nat → ℝ => o s nu c) _ fun r _ o => ?_
    rw [← exp_realPhase]
    exact bwd_row nchan ncorr vis flags _ freq r s o nu c hnu hc
  · intro s' _ hne o
    exact forRange_const (fun o : Nat → Nat → Nat → ℝ => o s nu c) fun r _ o =>
      bwd_row_other nchan ncorr vis flags _ freq r s' s o nu c hne.symm

/-- **C86**, conventions: anything but `"fourier"` and `"casa"` raises `ValueError` in both directions. -/
theorem C86_unknown_convention (nrow nsrc nchan ncorr : Nat) (image vis : Nat → Nat → Nat → ℂ) (uvw : Nat → ℝ × ℝ × ℝ)
    (lm : Nat → ℝ × ℝ) (freq : Nat → ℝ) (flags : Nat → Nat → Nat → Bool) (convention : String)
    (h1 : convention ≠ "fourier") (h2 : convention ≠ "casa") :
    imToVis nrow nsrc nchan ncorr image uvw lm freq convention = .error .valueError ∧
    visToIm nrow nsrc nchan ncorr vis uvw lm freq flags convention = .error .valueError := by
  unfold imToVis visToIm fwdConstant bwdConstant
  rw [if_neg h1, if_neg h2, if_neg h1, if_neg h2]
  exact ⟨rfl, rfl⟩

/-! ### linearity and adjointness -/

/-- **C86**, linearity of `im_to_vis`. -/
theorem C86_im_to_vis_linear (nrow nsrc nchan ncorr : Nat) (x y : Nat → Nat → Nat → ℂ) (a b : ℂ) (uvw : Nat → ℝ × ℝ × ℝ)
    (lm : Nat → ℝ × ℝ) (freq : Nat → ℝ) (convention : String) (hc : convention = "fourier" ∨ convention = "casa")
    (hlm : ∀ s < nsrc, (lm s).1 ^ 2 + (lm s).2 ^ 2 ≤ 1) :
    ∃ X Y Z, imToVis nrow nsrc nchan ncorr x uvw lm freq convention = .ok X ∧
      imToVis nrow nsrc nchan ncorr y uvw lm freq convention = .ok Y ∧
      imToVis nrow nsrc nchan ncorr (fun s nu c => a * x s nu c + b * y s nu c) uvw lm freq convention = .ok Z ∧
      ∀ r < nrow, ∀ nu < nchan, ∀ c < ncorr, Z r nu c = a * X r nu c + b * Y r nu c := by
  obtain ⟨sg, hsg⟩ : ∃ sg, Sign convention sg := by
    rcases hc with h | h
    · exact ⟨-1, Or.inl ⟨h, rfl⟩⟩
    · exact ⟨1, Or.inr ⟨h, rfl⟩⟩
  obtain ⟨X, hX, eX⟩ := C86_im_to_vis nrow nsrc nchan ncorr x uvw lm freq convention sg hsg hlm
  obtain ⟨Y, hY, eY⟩ := C86_im_to_vis nrow nsrc nchan ncorr y uvw lm freq convention sg hsg hlm
  obtain ⟨Z, hZ, eZ⟩ := C86_im_to_vis nrow nsrc nchan ncorr (fun s nu c => a * x s nu c + b * y s nu c) uvw lm freq
    convention sg hsg hlm
  refine ⟨X, Y, Z, hX, hY, hZ, fun r hr nu hnu c hc => ?_⟩
  rw [eX r hr nu hnu c hc, eY r hr nu hnu c hc, eZ r hr nu hnu c hc, Finset.mul_sum, Finset.mul_sum,
    ← Finset.sum_add_distrib]
  exact Finset.sum_congr rfl fun s _ => by ring

/-- **C86**, linearity of `vis_to_im` (over the real numbers: the image is real). -/
theorem C86_vis_to_im_linear (nrow nsrc nchan ncorr : Nat) (x y : Nat → Nat → Nat → ℂ) (a b : ℝ) (uvw : Nat → ℝ × ℝ × ℝ)
    (lm : Nat → ℝ × ℝ) (freq : Nat → ℝ) (flags : Nat → Nat → Nat → Bool) (convention : String)
    (hc : convention = "fourier" ∨ convention = "casa") (hlm : ∀ s < nsrc, (lm s).1 ^ 2 + (lm s).2 ^ 2 ≤ 1) :
    ∃ X Y Z, visToIm nrow nsrc nchan ncorr x uvw lm freq flags convention = .ok X ∧
      visToIm nrow nsrc nchan ncorr y uvw lm freq flags convention = .ok Y ∧
      visToIm nrow nsrc nchan ncorr (fun r nu c => a * x r nu c + b * y r nu c) uvw lm freq flags convention = .ok Z ∧
      ∀ s < nsrc, ∀ nu < nchan, ∀ c < ncorr, Z s nu c = a * X s nu c + b * Y s nu c := by
  obtain ⟨sg, hsg⟩ : ∃ sg, Sign convention sg := by
    rcases hc with h | h
    · exact ⟨-1, Or.inl ⟨h, rfl⟩⟩
    · exact ⟨1, Or.inr ⟨h, rfl⟩⟩
  obtain ⟨X, hX, eX⟩ := C86_vis_to_im nrow nsrc nchan ncorr x uvw lm freq flags convention sg hsg hlm
  obtain ⟨Y, hY, eY⟩ := C86_vis_to_im nrow nsrc nchan ncorr y uvw lm freq flags convention sg hsg hlm
  obtain ⟨Z, hZ, eZ⟩ := C86_vis_to_im nrow nsrc nchan ncorr (fun s nu c => a * x s nu c + b * y s nu c) uvw lm freq
    flags convention sg hsg hlm
  refine ⟨X, Y, Z, hX, hY, hZ, fun s hs nu hnu c hc => ?_⟩
  rw [eX s hs nu hnu c hc, eY s hs nu hnu c hc, eZ s hs nu hnu c hc, Finset.mul_sum, Finset.mul_sum,
    ← Finset.sum_add_distrib]
  refine Finset.sum_congr rfl fun r _ => ?_
  split
  · rw [mul_add, Complex.add_re, ← mul_assoc, ← mul_assoc, mul_comm _ (a : ℂ), mul_comm _ (b : ℂ), mul_assoc, mul_assoc,
      Complex.re_ofReal_mul, Complex.re_ofReal_mul]
  · ring

private theorem delay_conj (sg l m u v w nu : ℝ) : conj (delay sg l m u v w nu) = delay (-sg) l m u v w nu := by
  unfold delay
  rw [← Complex.exp_conj, map_mul, Complex.conj_I, Complex.conj_ofReal]
  congr 1
  push_cast
  ring

open Classical in
/-- **C86**, adjointness: for every real image, every visibilities and flags, the inner product of `im_to_vis(image)` with
the unflagged visibilities equals that of the image with `vis_to_im(vis)`. -/
theorem C86_adjoint (nrow nsrc nchan ncorr : Nat) (image : Nat → Nat → Nat → ℝ) (vis : Nat → Nat → Nat → ℂ)
    (uvw : Nat → ℝ × ℝ × ℝ) (lm : Nat → ℝ × ℝ) (freq : Nat → ℝ) (flags : Nat → Nat → Nat → Bool) (convention : String)
    (hc : convention = "fourier" ∨ convention = "casa") (hlm : ∀ s < nsrc, (lm s).1 ^ 2 + (lm s).2 ^ 2 ≤ 1) :
    ∃ V I, imToVis nrow nsrc nchan ncorr (fun s nu c => image s nu c) uvw lm freq convention = .ok V ∧
      visToIm nrow nsrc nchan ncorr vis uvw lm freq flags convention = .ok I ∧
      ∑ r ∈ range nrow, ∑ nu ∈ range nchan, ∑ c ∈ range ncorr,
        (if Unflagged ncorr flags r nu then (conj (V r nu c) * vis r nu c).re else 0) =
      ∑ s ∈ range nsrc, ∑ nu ∈ range nchan, ∑ c ∈ range ncorr, image s nu c * I s nu c := by
  obtain ⟨sg, hsg⟩ : ∃ sg, Sign convention sg := by
    rcases hc with h | h
    · exact ⟨-1, Or.inl ⟨h, rfl⟩⟩
    · exact ⟨1, Or.inr ⟨h, rfl⟩⟩
  obtain ⟨V, hV, eV⟩ := C86_im_to_vis nrow nsrc nchan ncorr (fun s nu c => (image s nu c : ℂ)) uvw lm freq convention sg
    hsg hlm
  obtain ⟨I, hI, eI⟩ := C86_vis_to_im nrow nsrc nchan ncorr vis uvw lm freq flags convention sg hsg hlm
  refine ⟨V, I, hV, hI, ?_⟩
  rw [Finset.sum_comm, Finset.sum_comm (s := range nsrc)]
  refine Finset.sum_congr rfl fun nu hnu => ?_
  rw [Finset.sum_comm, Finset.sum_comm (s := range nsrc)]
  refine Finset.sum_congr rfl fun c hc => ?_
  have e1 : ∀ r ∈ range nrow, (if Unflagged ncorr flags r nu then (conj (V r nu c) * vis r nu c).re else 0) =
      ∑ s ∈ range nsrc, image s nu c * if Unflagged ncorr flags r nu then
        (delay (-sg) (lm s).1 (lm s).2 (uvw r).1 (uvw r).2.1 (uvw r).2.2 (freq nu) * vis r nu c).re else 0 := by
    intro r hr
    split
    · rw [eV r (Finset.mem_range.mp hr) nu (Finset.mem_range.mp hnu) c (Finset.mem_range.mp hc), map_sum,
        Finset.sum_mul, Complex.re_sum]
      refine Finset.sum_congr rfl fun s _ => ?_
      rw [map_mul, delay_conj, Complex.conj_ofReal, mul_comm (delay _ _ _ _ _ _ _), mul_assoc, Complex.re_ofReal_mul]
    · simp
  rw [Finset.sum_congr rfl e1, Finset.sum_comm]
  refine Finset.sum_congr rfl fun s hs => ?_
  rw [← Finset.mul_sum, eI s (Finset.mem_range.mp hs) nu (Finset.mem_range.mp hnu) c (Finset.mem_range.mp hc)]

/-- **C86**, flags: visibilities of samples with a flagged correlation do not matter. -/
theorem C86_flagged_ignored (nrow nsrc nchan ncorr : Nat) (vis vis' : Nat → Nat → Nat → ℂ) (uvw : Nat → ℝ × ℝ × ℝ)
    (lm : Nat → ℝ × ℝ) (freq : Nat → ℝ) (flags : Nat → Nat → Nat → Bool) (convention : String)
    (hc : convention = "fourier" ∨ convention = "casa") (hlm : ∀ s < nsrc, (lm s).1 ^ 2 + (lm s).2 ^ 2 ≤ 1)
    (h : ∀ r < nrow, ∀ nu < nchan, (∀ c < ncorr, flags r nu c = false) → ∀ c < ncorr, vis r nu c = vis' r nu c) :
    ∃ I I', visToIm nrow nsrc nchan ncorr vis uvw lm freq flags convention = .ok I ∧
      visToIm nrow nsrc nchan ncorr vis' uvw lm freq flags convention = .ok I' ∧
      ∀ s < nsrc, ∀ nu < nchan, ∀ c < ncorr, I s nu c = I' s nu c := by
  obtain ⟨sg, hsg⟩ : ∃ sg, Sign convention sg := by
    rcases hc with h | h
    · exact ⟨-1, Or.inl ⟨h, rfl⟩⟩
    · exact ⟨1, Or.inr ⟨h, rfl⟩⟩
  obtain ⟨I, hI, eI⟩ := C86_vis_to_im nrow nsrc nchan ncorr vis uvw lm freq flags convention sg hsg hlm
  obtain ⟨I', hI', eI'⟩ := C86_vis_to_im nrow nsrc nchan ncorr vis' uvw lm freq flags convention sg hsg hlm
  refine ⟨I, I', hI, hI', fun s hs nu hnu c hc => ?_⟩
  rw [eI s hs nu hnu c hc, eI' s hs nu hnu c hc]
  refine Finset.sum_congr rfl fun r hr => ?_
  split
  · rename_i hu
    rw [h r (Finset.mem_range.mp hr) nu hnu hu c hc]
  · rfl

/-- Non-vacuity: one source at the centre with flux 2 gives visibility 2 whatever the baseline. -/
example : ∃ V, imToVis 3 1 1 1 (fun _ _ _ => 2) (fun r => (r, 1, 0)) (fun _ => (0, 0)) (fun _ => 5) "casa" = .ok V ∧
    V 2 0 0 = 2 := by
  obtain ⟨V, h, e⟩ := C86_im_to_vis 3 1 1 1 (fun _ _ _ => 2) (fun r => (r, 1, 0)) (fun _ => (0, 0)) (fun _ => 5) "casa" 1
    (Or.inr ⟨rfl, rfl⟩) (by simp)
  exact ⟨V, h, by rw [e 2 (by omega) 0 (by omega) 0 (by omega)]; simp [delay]⟩

end Verif.Dft
