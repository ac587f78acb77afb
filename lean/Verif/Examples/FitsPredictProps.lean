/-
C162: prediction of visibilities from a FITS image.
-/
import Verif.Examples.FitsPredict
import Verif.Dft.Props
import Mathlib.Tactic.Linarith
import Mathlib.Tactic.Positivity
import Mathlib.Tactic.Tauto
import Mathlib.Tactic.NormNum

set_option autoImplicit false

namespace Verif.Examples

open Finset (range)
open Verif.Rime (delay)

/-! ### Specification -/

/-- Specification: the coordinate of a pixel (counted from zero) of a FITS axis in radians: the offset from the reference
pixel (counted from one) times the step, which is in degrees. -/
noncomputable def fitsCoord (refpix delta : ℝ) (i : Nat) : ℝ := ((i : ℝ) + 1 - refpix) * (delta * Real.pi / 180)

/-- Specification: the visibility of an image on one channel, with the column of each pixel sent through `col`. -/
noncomputable def imageVis (h : FitsHeader) (col : Nat → Nat) (model : Nat → Nat → ℝ) (uvw : ℝ × ℝ × ℝ) (freq : ℝ) : ℂ :=
  ∑ m ∈ range h.naxis2, ∑ l ∈ range h.naxis1,
    delay (-1) (fitsCoord h.crpix1 h.cdelt1 (col l)) (fitsCoord h.crpix2 h.cdelt2 m) uvw.1 uvw.2.1 uvw.2.2 freq *
      (model m l : ℂ)

/-- Specification: a header as the program accepts it. -/
def GoodHeader (h : FitsHeader) : Prop :=
  (h.cunit1 = "DEG" ∨ h.cunit1 = "deg") ∧ (h.cunit2 = "DEG" ∨ h.cunit2 = "deg") ∧
    (h.ctype4 = "FREQ" ∧ h.naxis3 ≤ 1 ∨ h.ctype4 ≠ "FREQ" ∧ h.ctype3 = "FREQ" ∧ h.naxis4 ≤ 1)

/-! ### Lemmas -/

private theorem header_ok {h : FitsHeader} : checkHeader h = .ok () ↔ GoodHeader h := by
  unfold checkHeader GoodHeader
  split_ifs with h1 h2 h3 h4 h5 h6 <;> simp_all <;> tauto

private theorem coords_get (npix : Nat) (refpix delta : ℝ) (i : Nat) (hi : i < npix) :
    (axisCoords npix refpix (delta * Real.pi / 180)).getD i 0 = fitsCoord refpix delta i := by
  unfold axisCoords fitsCoord
  rw [List.getD_eq_getElem?_getD, List.getElem?_map, List.getElem?_range hi]
  simp only [Option.map_some, Option.getD_some]
  ring

private theorem sort_up (npix : Nat) (refpix d : ℝ) (hd : 0 ≤ d) :
    npSort (axisCoords npix refpix d) = axisCoords npix refpix d := by
  classical
  unfold npSort
  refine List.Pairwise.insertionSort_eq ?_
  unfold axisCoords
  rw [List.pairwise_map]
  refine List.pairwise_lt_range.imp ?_
  intro a b hab
  have : (a : ℝ) ≤ b := by exact_mod_cast hab.le
  exact mul_le_mul_of_nonneg_right (by linarith) hd

private theorem sort_down (npix : Nat) (refpix d : ℝ) (hd : d ≤ 0) :
    npSort (axisCoords npix refpix d) = (axisCoords npix refpix d).reverse := by
  classical
  unfold npSort
  refine List.Perm.eq_of_pairwise' (List.pairwise_insertionSort _ _) ?_
    ((List.perm_insertionSort _ _).trans (List.reverse_perm _).symm)
  rw [List.pairwise_reverse]
  unfold axisCoords
  rw [List.pairwise_map]
  refine List.pairwise_lt_range.imp ?_
  intro a b hab
  have : (a : ℝ) ≤ b := by exact_mod_cast hab.le
  exact mul_le_mul_of_nonpos_right (by linarith) hd

private theorem sum_pixels (nband npixTot : Nat) (cube : Nat → Nat → ℝ) (nu : Nat) (hnu : nu < nband) (F : Nat → ℂ) :
    ∑ s ∈ range (nonzeroPixels nband npixTot cube).length,
        F ((nonzeroPixels nband npixTot cube).getD s 0) * (cube nu ((nonzeroPixels nband npixTot cube).getD s 0) : ℂ) =
      ∑ t ∈ range npixTot, F t * (cube nu t : ℂ) := by
  classical
  have h1 : ∀ (xs : List Nat) (G : Nat → ℂ), ∑ s ∈ range xs.length, G (xs.getD s 0) = (xs.map G).sum := by
    intro xs G
    induction xs with
    | nil => simp
    | cons x xs ih =>
      rw [List.length_cons, Finset.sum_range_succ', List.map_cons, List.sum_cons, ← ih, add_comm]
      simp
  have h2 : ∀ (n : Nat) (p : Nat → Bool) (G : Nat → ℂ), (∀ t < n, p t = false → G t = 0) →
      (((List.range n).filter p).map G).sum = ∑ t ∈ range n, G t := by
    intro n p G hG
    induction n with
    | zero => simp
    | succ n ih =>
      rw [List.range_succ, List.filter_append, List.map_append, List.sum_append, Finset.sum_range_succ,
        ih fun t ht => hG t (by omega)]
      cases hp : p n
      · simp [List.filter, hp, hG n (by omega) hp]
      · simp [List.filter, hp]
  rw [h1 _ fun t => F t * (cube nu t : ℂ)]
  unfold nonzeroPixels
  refine h2 npixTot _ (fun t => F t * (cube nu t : ℂ)) fun t _ hp => ?_
  rw [decide_eq_false_iff_not] at hp
  push Not at hp
  rw [hp nu hnu, Complex.ofReal_zero, mul_zero]

private theorem sum_flat (n1 n2 : Nat) (G : Nat → Nat → ℂ) :
    ∑ t ∈ range (n1 * n2), G (t / n1) (t % n1) = ∑ m ∈ range n2, ∑ l ∈ range n1, G m l := by
  induction n2 with
  | zero => simp
  | succ n2 ih =>
    rw [Nat.mul_succ, Finset.sum_range_add, ih, Finset.sum_range_succ]
    congr 1
    refine Finset.sum_congr rfl fun l hl => ?_
    rw [Finset.mem_range] at hl
    rw [Nat.mul_add_div (by omega), Nat.div_eq_of_lt hl, Nat.add_zero, Nat.mul_add_mod, Nat.mod_eq_of_lt hl]

/-- The visibilities of Stokes I before they are assigned to correlations. -/
private theorem stokes (h : FitsHeader) (hh : GoodHeader h) (nrow dataCorr : Nat) (model : Nat → Nat → Nat → ℝ)
    (uvw : Nat → ℝ × ℝ × ℝ) (freq : Nat → ℝ) (col : Nat → Nat) (hcol : ∀ l < h.naxis1, col l < h.naxis1)
    (hsort : ∀ l < h.naxis1, (npSort (axisCoords h.naxis1 h.crpix1 (h.cdelt1 * Real.pi / 180))).getD l 0 =
      fitsCoord h.crpix1 h.cdelt1 (col l))
    (hsky : ∀ m < h.naxis2, ∀ l < h.naxis1, fitsCoord h.crpix1 h.cdelt1 l ^ 2 + fitsCoord h.crpix2 h.cdelt2 m ^ 2 ≤ 1)
    (hone : (nonzeroPixels 1 (h.naxis1 * h.naxis2) fun nu t => model nu (t / h.naxis1) (t % h.naxis1)).length ≠ 1) :
    ∃ vis, predictFromFits false h nrow 1 1 dataCorr model uvw freq = toCorrs dataCorr vis ∧
      ∀ r < nrow, vis r 0 0 = imageVis h col (model 0) (uvw r) (freq 0) := by
  classical
  set idx := nonzeroPixels 1 (h.naxis1 * h.naxis2) fun nu t => model nu (t / h.naxis1) (t % h.naxis1) with hidx
  have hin : ∀ s < idx.length, idx.getD s 0 < h.naxis1 * h.naxis2 := by
    intro s hs
    rw [List.getD_eq_getElem?_getD, List.getElem?_eq_getElem hs, Option.getD_some]
    have hm : ∀ t ∈ idx, t < h.naxis1 * h.naxis2 := by
      rw [hidx]
      unfold nonzeroPixels
      exact fun t ht => List.mem_range.1 (List.mem_of_mem_filter ht)
    exact hm _ (List.getElem_mem hs)
  have hpos : ∀ t < h.naxis1 * h.naxis2, t % h.naxis1 < h.naxis1 ∧ t / h.naxis1 < h.naxis2 := by
    intro t ht
    have hn : 0 < h.naxis1 := by
      rcases Nat.eq_zero_or_pos h.naxis1 with e | e
      · rw [e, Nat.zero_mul] at ht; omega
      · exact e
    exact ⟨Nat.mod_lt _ hn, Nat.div_lt_of_lt_mul ht⟩
  obtain ⟨V, hV, hval⟩ := Dft.C86_im_to_vis nrow idx.length 1 1
    (fun s nu _ => (model nu (idx.getD s 0 / h.naxis1) (idx.getD s 0 % h.naxis1) : ℂ)) uvw
    (fun s => ((npSort (axisCoords h.naxis1 h.crpix1 (h.cdelt1 * Real.pi / 180))).getD (idx.getD s 0 % h.naxis1) 0,
      (axisCoords h.naxis2 h.crpix2 (h.cdelt2 * Real.pi / 180)).getD (idx.getD s 0 / h.naxis1) 0)) freq "fourier" (-1)
    (Or.inl ⟨rfl, rfl⟩) (by
      intro s hs
      obtain ⟨h1, h2⟩ := hpos _ (hin s hs)
      dsimp only
      rw [hsort _ h1, coords_get _ _ _ _ h2]
      exact hsky _ h2 _ (hcol _ h1))
  refine ⟨V, ?_, fun r hr => ?_⟩
  · unfold predictFromFits
    rw [header_ok.2 hh]
    dsimp only
    rw [← hidx, if_neg hone]
    simp only [checkChannels, Bool.false_eq_true, if_false, not_true_eq_false, ne_eq]
    rw [hV]
  · rw [hval r hr 0 (by omega) 0 (by omega)]
    have hF := sum_pixels 1 (h.naxis1 * h.naxis2) (fun nu t => model nu (t / h.naxis1) (t % h.naxis1)) 0 (by omega)
      (fun t => delay (-1) ((npSort (axisCoords h.naxis1 h.crpix1 (h.cdelt1 * Real.pi / 180))).getD (t % h.naxis1) 0)
        ((axisCoords h.naxis2 h.crpix2 (h.cdelt2 * Real.pi / 180)).getD (t / h.naxis1) 0) (uvw r).1 (uvw r).2.1 (uvw r).2.2
        (freq 0))
    rw [← hidx] at hF
    dsimp only at hF ⊢
    rw [hF, sum_flat h.naxis1 h.naxis2 fun m l =>
      delay (-1) ((npSort (axisCoords h.naxis1 h.crpix1 (h.cdelt1 * Real.pi / 180))).getD l 0)
        ((axisCoords h.naxis2 h.crpix2 (h.cdelt2 * Real.pi / 180)).getD m 0) (uvw r).1 (uvw r).2.1 (uvw r).2.2
        (freq 0) * (model 0 m l : ℂ)]
    unfold imageVis
    refine Finset.sum_congr rfl fun m hm => Finset.sum_congr rfl fun l hl => ?_
    rw [Finset.mem_range] at hm hl
    rw [hsort l hl, coords_get _ _ _ _ hm]

private theorem to_corrs (dataCorr : Nat) (vis : Nat → Nat → Nat → ℂ) (hc : dataCorr = 1 ∨ dataCorr = 2 ∨ dataCorr = 4) :
    ∃ out, toCorrs dataCorr vis = .ok out ∧ ∀ r, ∀ c < dataCorr,
      out r 0 c = if dataCorr = 4 ∧ (c = 1 ∨ c = 2) then 0 else vis r 0 0 := by
  rcases hc with rfl | rfl | rfl
  · refine ⟨_, rfl, fun r c hc => ?_⟩
    have : c = 0 := by omega
    subst this; simp
  · refine ⟨_, rfl, fun r c hc => ?_⟩
    simp
  · refine ⟨_, rfl, fun r c hc => ?_⟩
    have : c = 0 ∨ c = 1 ∨ c = 2 ∨ c = 3 := by omega
    rcases this with rfl | rfl | rfl | rfl <;> simp

/-! ### C162 -/

/-- **C162** For one channel whose frequencies come without an axis of rows, an image whose first axis does not decrease
and no or at least two non-zero pixels, the visibilities are those of the image, with each pixel at its coordinates; Stokes
I is written to the parallel hands and zero to the cross hands. -/
theorem C162_partial (h : FitsHeader) (hh : GoodHeader h) (nrow dataCorr : Nat) (model : Nat → Nat → Nat → ℝ)
    (uvw : Nat → ℝ × ℝ × ℝ) (freq : Nat → ℝ) (hc : dataCorr = 1 ∨ dataCorr = 2 ∨ dataCorr = 4)
    (hsky : ∀ m < h.naxis2, ∀ l < h.naxis1, fitsCoord h.crpix1 h.cdelt1 l ^ 2 + fitsCoord h.crpix2 h.cdelt2 m ^ 2 ≤ 1)
    (hone : (nonzeroPixels 1 (h.naxis1 * h.naxis2) fun nu t => model nu (t / h.naxis1) (t % h.naxis1)).length ≠ 1)
    (hd : 0 ≤ h.cdelt1) :
    ∃ out, predictFromFits false h nrow 1 1 dataCorr model uvw freq = .ok out ∧ ∀ r < nrow, ∀ c < dataCorr,
      out r 0 c = if dataCorr = 4 ∧ (c = 1 ∨ c = 2) then 0 else imageVis h id (model 0) (uvw r) (freq 0) := by
  obtain ⟨vis, e, hv⟩ := stokes h hh nrow dataCorr model uvw freq id (fun l hl => hl) (by
    intro l hl
    rw [sort_up _ _ _ (by have := Real.pi_pos; positivity), coords_get _ _ _ _ hl]
    rfl) hsky hone
  obtain ⟨out, eo, ho⟩ := to_corrs dataCorr vis hc
  refine ⟨out, e.trans eo, fun r hr c hcc => ?_⟩
  rw [ho r c hcc, hv r hr]

/-- **C162** fails for images whose first axis decreases, as is usual for right ascension: the coordinates are sorted, so
that the image is mirrored. -/
theorem C162_mirror_violated (h : FitsHeader) (hh : GoodHeader h) (nrow dataCorr : Nat) (model : Nat → Nat → Nat → ℝ)
    (uvw : Nat → ℝ × ℝ × ℝ) (freq : Nat → ℝ) (hc : dataCorr = 1 ∨ dataCorr = 2 ∨ dataCorr = 4)
    (hsky : ∀ m < h.naxis2, ∀ l < h.naxis1, fitsCoord h.crpix1 h.cdelt1 l ^ 2 + fitsCoord h.crpix2 h.cdelt2 m ^ 2 ≤ 1)
    (hone : (nonzeroPixels 1 (h.naxis1 * h.naxis2) fun nu t => model nu (t / h.naxis1) (t % h.naxis1)).length ≠ 1)
    (hd : h.cdelt1 < 0) :
    ∃ out, predictFromFits false h nrow 1 1 dataCorr model uvw freq = .ok out ∧ ∀ r < nrow, ∀ c < dataCorr,
      out r 0 c = if dataCorr = 4 ∧ (c = 1 ∨ c = 2) then 0
        else imageVis h (fun l => h.naxis1 - 1 - l) (model 0) (uvw r) (freq 0) := by
  obtain ⟨vis, e, hv⟩ := stokes h hh nrow dataCorr model uvw freq (fun l => h.naxis1 - 1 - l) (fun l hl => by omega) (by
    intro l hl
    have hneg : h.cdelt1 * Real.pi / 180 ≤ 0 := by
      have := mul_nonneg (neg_nonneg.2 hd.le) Real.pi_pos.le
      linarith
    rw [sort_down _ _ _ hneg]
    have hlen : (axisCoords h.naxis1 h.crpix1 (h.cdelt1 * Real.pi / 180)).length = h.naxis1 := by
      unfold axisCoords; rw [List.length_map, List.length_range]
    rw [List.getD_eq_getElem?_getD, List.getElem?_reverse (by rw [hlen]; exact hl), hlen,
      ← List.getD_eq_getElem?_getD, coords_get _ _ _ _ (by omega)]) hsky hone
  obtain ⟨out, eo, ho⟩ := to_corrs dataCorr vis hc
  refine ⟨out, e.trans eo, fun r hr c hcc => ?_⟩
  rw [ho r c hcc, hv r hr]

/-- **C162** fails for every measurement set with more than one channel, whether or not the table of frequencies has an
axis of rows, and with that axis for one channel too: the program stops. So it does for exactly one non-zero pixel. -/
theorem C162_stops_violated (rowAxis : Bool) (h : FitsHeader) (hh : GoodHeader h) (nrow nband nchan dataCorr : Nat)
    (model : Nat → Nat → Nat → ℝ) (uvw : Nat → ℝ × ℝ × ℝ) (freq : Nat → ℝ)
    (hs : rowAxis = true ∨ 1 < nchan ∨
      (nonzeroPixels nband (h.naxis1 * h.naxis2) fun nu t => model nu (t / h.naxis1) (t % h.naxis1)).length = 1) :
    predictFromFits rowAxis h nrow nband nchan dataCorr model uvw freq = .error .valueError := by
  unfold predictFromFits
  rw [header_ok.2 hh]
  dsimp only
  by_cases h1 : (nonzeroPixels nband (h.naxis1 * h.naxis2) fun nu t => model nu (t / h.naxis1) (t % h.naxis1)).length = 1
  · rw [if_pos h1]
  · rw [if_neg h1]
    have : checkChannels rowAxis nband nchan = .error .valueError := by
      unfold checkChannels
      rcases hs with e | e | e
      · rw [if_pos e]
      · by_cases hb : rowAxis = true
        · rw [if_pos hb]
        · rw [if_neg hb]
          by_cases h2 : nband ≠ 1
          · rw [if_pos h2]
          · rw [if_neg h2, if_pos (by omega)]
      · exact absurd e h1
    rw [this]

/-- **C162** Images in other units, without frequencies or with several Stokes parameters are refused. -/
theorem C162_refused (rowAxis : Bool) (h : FitsHeader) (hh : ¬ GoodHeader h) (nrow nband nchan dataCorr : Nat)
    (model : Nat → Nat → Nat → ℝ) (uvw : Nat → ℝ × ℝ × ℝ) (freq : Nat → ℝ) :
    predictFromFits rowAxis h nrow nband nchan dataCorr model uvw freq = .error .valueError := by
  unfold predictFromFits
  have : checkHeader h = .error .valueError := by
    have hne := fun e => hh (header_ok.1 e)
    unfold checkHeader at hne ⊢
    split_ifs at hne ⊢ <;> first | rfl | exact absurd rfl hne
  rw [this]

/-- An image of two by one pixels meets the hypotheses: mirrored, the brighter pixel changes sides. -/
example : GoodHeader ⟨"deg", "deg", 2, 1, 1, 1, -1, 1, "STOKES", "FREQ", 1, 1⟩ ∧
    (nonzeroPixels 1 (2 * 1) fun nu t => (fun _ _ l => if l = 0 then (3 : ℝ) else 5) nu (t / 2) (t % 2)).length ≠ 1 := by
  classical
  refine ⟨⟨Or.inr rfl, Or.inr rfl, Or.inl ⟨rfl, by decide⟩⟩, ?_⟩
  unfold nonzeroPixels
  rw [List.filter_eq_self.2]
  · simp
  · intro t _
    rw [decide_eq_true_eq]
    exact ⟨0, by omega, by dsimp only; split_ifs <;> norm_num⟩

end Verif.Examples
