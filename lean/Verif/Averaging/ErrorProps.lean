/-
C196: errors of the data are not amplified.
-/
import Verif.Averaging.CalProps
import Verif.Calibration.Props
import Verif.Dft.BeamProps
import Verif.Rime.PropsTerms
import Mathlib.Analysis.Normed.Module.Convex

set_option autoImplicit false

namespace Verif.Averaging

open Finset
open Verif.Calibration (corruptVis correctVis InBin Disjoint' Jones Vis ModelVis)
open Verif.Dft (imToVis visToIm Unflagged)

/-- **C196**: if the visibilities of the samples of a bin are within `ε` of others, so is their average, for positive weights. -/
theorem C196_average (sqrt : ℂ → ℂ) (junk : Nat → Int)
    (sentinel : ℚ) (n nchan ncorr : Nat) (time interval : Nat → ℚ) (ant1 ant2 : Nat → Int)
    (flagRow : Option (Nat → Nat)) (rowCols : RowCols ℂ)
    (chanFreq chanWidth effectiveBw resolution : Option (Nat → ℂ)) (cols : CubeCols ℂ)
    (secs : ℚ) (bin : Nat) [DecidableEq ℂ] (out : AverageOutput ℂ)
    (h32 : ∀ r < n, IsInt32 (ant1 r)) (hsent : ∀ r < n, time r < sentinel)
    (h01 : ZeroOne n flagRow) (hb : 1 ≤ bin)
    (hsum : ∀ co < ncorr, ∀ S : Finset (Nat × Nat),
      ∑ p ∈ S, sampleWt cols.weightSpectrum cols.weight p.1 p.2 co = 0 →
        ∀ p ∈ S, sampleWt cols.weightSpectrum cols.weight p.1 p.2 co = 0)
    (hwt : ∀ r < n, ∀ f < nchan, ∀ co < ncorr, ∃ x : ℝ, 0 < x ∧
      sampleWt cols.weightSpectrum cols.weight r f co = (x : ℂ))
    (avg : (Nat → Nat → Nat → ℂ) → Except PyErr (AverageOutput ℂ))
    (havg : avg = fun x => timeAndChannel sqrt junk sentinel n nchan ncorr time interval ant1 ant2 flagRow rowCols
      chanFreq chanWidth effectiveBw resolution { cols with vis := some x } secs bin)
    (h : timeAndChannel sqrt junk sentinel n nchan ncorr time interval ant1 ant2 flagRow rowCols
      chanFreq chanWidth effectiveBw resolution cols secs bin = .ok out) (v w : Nat → Nat → Nat → ℂ) :
    ∃ ov ow, avg v = .ok ov ∧ avg w = .ok ow ∧
      ∀ o < out.rows.outRows, ∀ fo < out.outChans, ∀ co < ncorr, ∀ ε : ℝ,
        (∀ r < n, ∀ f < nchan, out.rows.map r = o → f / bin = fo → ‖v r f co - w r f co‖ ≤ ε) →
        ∃ x y, ov.cubeData.vis = some x ∧ ow.cubeData.vis = some y ∧ ‖x o fo co - y o fo co‖ ≤ ε := by
  obtain ⟨ov, ow, ou, e1, e2, e3, key⟩ := C169_linear sqrt junk sentinel n nchan ncorr time interval ant1 ant2 flagRow rowCols
    chanFreq chanWidth effectiveBw resolution cols secs bin out h32 hsent h01 hb h v w (fun r f c => v r f c - w r f c)
    hsum avg havg
  refine ⟨ov, ow, e1, e2, fun o ho fo hfo co hco ε hε => ?_⟩
  obtain ⟨x, y, z, hx, hy, hz, e⟩ := key o ho fo hfo co hco 1 (-1) (fun r _ f _ _ _ => by ring)
  refine ⟨x, y, hx, hy, ?_⟩
  rw [havg] at e3
  obtain ⟨hrows, hchans⟩ : ou.rows = out.rows ∧ ou.outChans = out.outChans := by
    have h' := h
    unfold timeAndChannel at h' e3
    cases hmf : mergeFlags n nchan ncorr flagRow cols.flag with
    | error e => rw [hmf] at h'; cases h'
    | ok fr =>
      simp only [hmf] at h' e3
      cases hrm : rowMapper sentinel n time interval ant1 ant2 fr secs with
      | error e => rw [hrm] at h'; cases h'
      | ok rm =>
        simp only [hrm] at h' e3
        split at h'
        · cases h'
        · split at e3
          · cases e3
          · cases h'; cases e3; exact ⟨rfl, rfl⟩
  obtain ⟨z', hz', hball⟩ := C169_convex sqrt junk sentinel n nchan ncorr time interval ant1 ant2 flagRow
    rowCols chanFreq chanWidth effectiveBw resolution { cols with vis := some fun r f c => v r f c - w r f c } secs bin ou h32
    hsent h01 hb _ rfl hwt e3 o fo co (hrows ▸ ho) (hchans ▸ hfo) hco (Metric.closedBall 0 ε) (convex_closedBall _ _)
    (fun r hr f hf hro hfo' => by
      rw [mem_closedBall_zero_iff]
      exact hε r hr f hf (hrows ▸ hro) hfo')
  obtain rfl : z' = z := Option.some.inj (hz'.symm.trans hz)
  rw [mem_closedBall_zero_iff, e] at hball
  have e' : x o fo co - y o fo co = 1 * x o fo co + -1 * y o fo co := by ring
  rw [e']
  exact hball

/-- **C196**: correcting visibilities with scalar gains divides their errors by the moduli of the two gains: phases leave
the size of errors alone. -/
theorem C196_correct (ntim m : Nat) (idx cnt ant1 ant2 : Nat → Nat) (nchan ncorr : Nat) (j : Nat → Nat → Nat → Nat → Nat → ℂ)
    (hm : Verif.Calibration.IsMin ntim idx m) (hd : Disjoint' ntim idx cnt) (u v : Nat → Nat → Nat → ℂ)
    (flagged : Nat → Nat → Bool) :
    ∃ x y, correctVis ntim ntim idx cnt ant1 ant2 nchan 1 ncorr (.five j) (.three u) flagged = .ok (.three x) ∧
      correctVis ntim ntim idx cnt ant1 ant2 nchan 1 ncorr (.five j) (.three v) flagged = .ok (.three y) ∧
      ∀ t < ntim, ∀ row, InBin idx cnt t (m + row) → ∀ nu < nchan, ∀ c < ncorr, flagged row nu = false →
        ‖x row nu c - y row nu c‖ = ‖u row nu c - v row nu c‖ / (‖j t (ant1 row) nu 0 c‖ * ‖j t (ant2 row) nu 0 c‖) := by
  have hex : ∀ d : Nat → Nat → Nat → ℂ, ∃ v, correctVis ntim ntim idx cnt ant1 ant2 nchan 1 ncorr (.five j) (.three d) flagged =
      .ok (.three v) ∧ ∀ t < ntim, ∀ row, InBin idx cnt t (m + row) → ∀ nu < nchan, ∀ c < ncorr, flagged row nu = false →
        v row nu c = d row nu c / (j t (ant1 row) nu 0 c * star (j t (ant2 row) nu 0 c)) := by
    intro d
    refine ⟨_, by unfold correctVis; rw [Verif.Calibration.shiftIdx_ok hm]; rfl, fun t ht row hr nu hnu c hc hfl => ?_⟩
    rw [Verif.Calibration.binLoop_bin (Verif.Calibration.disjoint_shift hm hd) ht ((Verif.Calibration.inBin_shift hm ht).2 hr) hnu,
      if_neg (by simp [hfl]), Verif.Calibration.inverseMulDD_eq _ _ _ _ _ _ hc]
  obtain ⟨x, hx, ex⟩ := hex u
  obtain ⟨y, hy, ey⟩ := hex v
  refine ⟨x, y, hx, hy, fun t ht row hr nu hnu c hc hfl => ?_⟩
  rw [ex t ht row hr nu hnu c hc hfl, ey t ht row hr nu hnu c hc hfl, ← sub_div, norm_div, norm_mul, norm_star]

/-- **C196**: an error of a model changes the corrupted visibilities by the error times the moduli of the two gains. -/
theorem C196_corrupt (ntim m : Nat) (idx cnt ant1 ant2 : Nat → Nat) (nchan ncorr : Nat) (j : Nat → Nat → Nat → Nat → Nat → ℂ)
    (hm : Verif.Calibration.IsMin ntim idx m) (hd : Disjoint' ntim idx cnt) (u v : Nat → Nat → Nat → ℂ) :
    ∃ x y, corruptVis ntim idx cnt ant1 ant2 nchan 1 (.five j) (.four fun r f _ c => u r f c) = .ok (.three x) ∧
      corruptVis ntim idx cnt ant1 ant2 nchan 1 (.five j) (.four fun r f _ c => v r f c) = .ok (.three y) ∧
      ∀ t < ntim, ∀ row, InBin idx cnt t (m + row) → ∀ nu < nchan, ∀ c < ncorr,
        ‖x row nu c - y row nu c‖ = ‖u row nu c - v row nu c‖ * (‖j t (ant1 row) nu 0 c‖ * ‖j t (ant2 row) nu 0 c‖) := by
  obtain ⟨x, hx, ex, -⟩ := Verif.Calibration.C21_corrupt_diag_diag ant1 ant2 nchan 1 ncorr j (fun r f _ c => u r f c) hm hd
  obtain ⟨y, hy, ey, -⟩ := Verif.Calibration.C21_corrupt_diag_diag ant1 ant2 nchan 1 ncorr j (fun r f _ c => v r f c) hm hd
  refine ⟨x, y, hx, hy, fun t ht row hr nu hnu c hc => ?_⟩
  have h1 := congrFun (congrFun (ex t ht row hr nu hnu) ⟨c, hc⟩) ⟨c, hc⟩
  have h2 := congrFun (congrFun (ey t ht row hr nu hnu) ⟨c, hc⟩) ⟨c, hc⟩
  rw [Finset.sum_range_one, Matrix.diagonal_conjTranspose, Matrix.diagonal_mul_diagonal, Matrix.diagonal_mul_diagonal,
    Matrix.diagonal_apply_eq, Matrix.diagonal_apply_eq] at h1 h2
  simp only [Pi.star_apply, RCLike.star_def] at h1 h2
  have e : ∀ g h' a b : ℂ, g * a * (starRingEnd ℂ) h' - g * b * (starRingEnd ℂ) h' = (a - b) * (g * (starRingEnd ℂ) h') :=
    fun g h' a b => by ring
  rw [h1, h2, e, norm_mul, norm_mul, RCLike.norm_conj]

section
variable (nrow nsrc nchan ncorr : Nat) (uvw : Nat → ℝ × ℝ × ℝ) (lm : Nat → ℝ × ℝ) (freq : Nat → ℝ) (convention : String)
  (hc : convention = "fourier" ∨ convention = "casa") (hlm : ∀ s < nsrc, (lm s).1 ^ 2 + (lm s).2 ^ 2 ≤ 1)
include hc hlm

/-- **C196**: no visibility that `im_to_vis` gives changes by more than the sum of the changes of the image. -/
theorem C196_model (x y : Nat → Nat → Nat → ℂ) :
    ∃ X Y, imToVis nrow nsrc nchan ncorr x uvw lm freq convention = .ok X ∧
      imToVis nrow nsrc nchan ncorr y uvw lm freq convention = .ok Y ∧
      ∀ r < nrow, ∀ nu < nchan, ∀ c < ncorr, ‖X r nu c - Y r nu c‖ ≤ ∑ s ∈ range nsrc, ‖x s nu c - y s nu c‖ := by
  obtain ⟨sg, hsg⟩ : ∃ sg, Verif.Dft.Sign convention sg := by
    rcases hc with h | h
    · exact ⟨-1, Or.inl ⟨h, rfl⟩⟩
    · exact ⟨1, Or.inr ⟨h, rfl⟩⟩
  obtain ⟨X, hX, eX⟩ := Verif.Dft.C86_im_to_vis nrow nsrc nchan ncorr x uvw lm freq convention sg hsg hlm
  obtain ⟨Y, hY, eY⟩ := Verif.Dft.C86_im_to_vis nrow nsrc nchan ncorr y uvw lm freq convention sg hsg hlm
  refine ⟨X, Y, hX, hY, fun r hr nu hnu c hcc => ?_⟩
  rw [eX r hr nu hnu c hcc, eY r hr nu hnu c hcc, ← sum_sub_distrib]
  refine (norm_sum_le _ _).trans (sum_le_sum fun s _ => ?_)
  rw [← mul_sub, norm_mul, Verif.Rime.delay_norm, one_mul]

open Classical in
/-- **C196**: no pixel that `vis_to_im` gives changes by more than the sum of the changes of the visibilities that are not
flagged. -/
theorem C196_image (flags : Nat → Nat → Nat → Bool) (x y : Nat → Nat → Nat → ℂ) :
    ∃ X Y, visToIm nrow nsrc nchan ncorr x uvw lm freq flags convention = .ok X ∧
      visToIm nrow nsrc nchan ncorr y uvw lm freq flags convention = .ok Y ∧
      ∀ s < nsrc, ∀ nu < nchan, ∀ c < ncorr, |X s nu c - Y s nu c| ≤
        ∑ r ∈ (range nrow).filter fun r => Unflagged ncorr flags r nu, ‖x r nu c - y r nu c‖ := by
  obtain ⟨sg, hsg⟩ : ∃ sg, Verif.Dft.Sign convention sg := by
    rcases hc with h | h
    · exact ⟨-1, Or.inl ⟨h, rfl⟩⟩
    · exact ⟨1, Or.inr ⟨h, rfl⟩⟩
  obtain ⟨X, hX, eX⟩ := Verif.Dft.C86_vis_to_im nrow nsrc nchan ncorr x uvw lm freq flags convention sg hsg hlm
  obtain ⟨Y, hY, eY⟩ := Verif.Dft.C86_vis_to_im nrow nsrc nchan ncorr y uvw lm freq flags convention sg hsg hlm
  refine ⟨X, Y, hX, hY, fun s hs nu hnu c hcc => ?_⟩
  rw [eX s hs nu hnu c hcc, eY s hs nu hnu c hcc, ← sum_sub_distrib, sum_filter]
  refine (abs_sum_le_sum_abs _ _).trans (sum_le_sum fun r _ => ?_)
  by_cases hf : Unflagged ncorr flags r nu
  · rw [if_pos hf, if_pos hf, if_pos hf, ← Complex.sub_re, ← mul_sub]
    refine (Complex.abs_re_le_norm _).trans ?_
    rw [norm_mul, Verif.Rime.delay_norm, one_mul]
  · rw [if_neg hf, if_neg hf, if_neg hf, sub_zero, abs_zero]

end

open Classical in
/-- **C196**: on a complete regular grid of baselines matching a regular grid of pixels, the power of the visibilities is the
power of the image times the number of baselines. -/
theorem C196_parseval (N ncorr : Nat) (hN : 0 < N) (image : Nat → Nat → Nat → ℝ) (uvw : Nat → ℝ × ℝ × ℝ)
    (lm : Nat → ℝ × ℝ) (convention : String)
    (hc : convention = "fourier" ∨ convention = "casa") (hlm : ∀ s < N * N, (lm s).1 ^ 2 + (lm s).2 ^ 2 ≤ 1)
    (cell l0 m0 f : ℝ) (hcell : cell ≠ 0) (hf : f ≠ 0)
    (hpix : ∀ y < N, ∀ x < N, lm (y * N + x) = (l0 + x * cell, m0 + y * cell))
    (hrow : ∀ b < N, ∀ a < N, uvw (b * N + a) = (a * 299792458 / (f * N * cell), b * 299792458 / (f * N * cell), 0)) :
    ∃ V, imToVis (N * N) (N * N) 1 ncorr (fun s nu c => image s nu c) uvw lm (fun _ => f) convention = .ok V ∧
      ∑ r ∈ range (N * N), ∑ c ∈ range ncorr, ‖V r 0 c‖ ^ 2 =
        (N * N : ℝ) * ∑ s ∈ range (N * N), ∑ c ∈ range ncorr, image s 0 c ^ 2 := by
  obtain ⟨V, D, hV, hD, e⟩ := Verif.Dft.C187_complete N 1 ncorr hN image uvw lm (fun _ => f) (fun _ _ _ => false) convention hc hlm
    cell l0 m0 f hcell hf hpix hrow
  obtain ⟨V', D', hV', hD', e'⟩ := Verif.Dft.C86_adjoint (N * N) (N * N) 1 ncorr image V uvw lm (fun _ => f) (fun _ _ _ => false)
    convention hc hlm
  obtain rfl : V' = V := Except.ok.inj (hV'.symm.trans hV)
  obtain rfl : D' = D := Except.ok.inj (hD'.symm.trans hD)
  have hun : ∀ r nu, Unflagged ncorr (fun _ _ _ => false) r nu := fun r nu c hcc => rfl
  refine ⟨V', hV, ?_⟩
  simp only [sum_range_one] at e'
  rw [mul_sum]
  have hl : ∀ r ∈ range (N * N), ∑ c ∈ range ncorr, ‖V' r 0 c‖ ^ 2 =
      ∑ c ∈ range ncorr, (if Unflagged ncorr (fun _ _ _ => false) r 0 then ((starRingEnd ℂ) (V' r 0 c) * V' r 0 c).re else 0) := by
    intro r _
    refine sum_congr rfl fun c _ => ?_
    rw [if_pos (hun r 0), ← Complex.normSq_eq_conj_mul_self, Complex.ofReal_re, Complex.normSq_eq_norm_sq]
  rw [sum_congr rfl hl, e']
  refine sum_congr rfl fun s hs => ?_
  rw [mul_sum]
  refine sum_congr rfl fun c hcc => ?_
  rw [e s (mem_range.1 hs) 0 Nat.one_pos rfl (fun r _ => hun r 0) c (mem_range.1 hcc)]
  ring

/-- The hypotheses of C196_average hold for averaging a row of four channels by two; the data differ by `1/2` in each
sample. -/
example : ∃ _ : DecidableEq ℂ, ∃ out : AverageOutput ℂ,
    timeAndChannel id (fun _ => 0) 1000 1 4 1 (fun _ => 0) (fun _ => 1) (fun _ => ((0 : Nat) : Int)) (fun _ => ((1 : Nat) : Int)) none
        ⟨none, none, none, none, none⟩ none none none none ⟨none, some fun _ _ _ => 1, none, none, none⟩ 1 2 = .ok out ∧
      out.rows.outRows = 1 ∧ out.outChans = 2 ∧ ‖(fun _ f _ => (f : ℂ) : Nat → Nat → Nat → ℂ) 0 1 0 -
        (fun _ f _ => (f : ℂ) + 1 / 2 : Nat → Nat → Nat → ℂ) 0 1 0‖ ≤ (1 / 2 : ℝ) := by
  refine ⟨Classical.decEq _, ?_⟩
  obtain ⟨out, h1, h2, h3, -⟩ := one_row (fun _ _ _ => 1)
  refine ⟨out, h1, h2, h3, ?_⟩
  norm_num

/-- Two times of two rows meet the hypotheses of C196_correct and C196_corrupt, with a gain of modulus 2. -/
example : Verif.Calibration.IsMin 2 (fun t => 2 * t) 0 ∧ Disjoint' 2 (fun t => 2 * t) (fun _ => 2) ∧
    InBin (fun t => 2 * t) (fun _ => 2) 1 (0 + 3) ∧
    ‖(fun _ _ _ _ _ => 2 * Complex.I : Nat → Nat → Nat → Nat → Nat → ℂ) 1 0 0 0 0‖ = 2 := by
  refine ⟨⟨⟨0, by simp⟩, by simp⟩, fun a ha b hb r h1 h2 => ?_, by simp [InBin], by simp⟩
  simp only [InBin] at h1 h2
  omega

end Verif.Averaging
