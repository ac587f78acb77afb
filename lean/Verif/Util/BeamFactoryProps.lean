/-
Property C140: beam_factory and beam_grids fit together.
-/
import Verif.Util.BeamFactory
import Verif.Util.BeamsProps
import Mathlib.Analysis.Real.Pi.Bounds

set_option autoImplicit false

noncomputable section

namespace Verif.Util.Beams

open Verif.Util

/-- The random numbers are in `[0, 1)`, as `np.random.random` documents. -/
def Random (rnd : Nat → ℝ) : Prop := ∀ i, 0 ≤ rnd i ∧ rnd i < 1

/-! ### Auxiliary facts -/

theorem bandwidthDelta_eq (f0 f1 : ℝ) : bandwidthDelta f0 f1 = (f1 - f0) / 33 - 1 := by
  unfold bandwidthDelta linspace
  norm_num
  ring

theorem gfrequency_step (f0 f1 : ℝ) (rnd : Nat → ℝ) (hr : Random rnd) (hbw : 33 ≤ f1 - f0) (i : Nat) :
    0 ≤ gfrequency f0 f1 rnd (i + 1) - gfrequency f0 f1 rnd i := by
  have hj : ∀ k, |if k = 0 ∨ k = 32 then (0 : ℝ) else (rnd k - 0.5) * (0.1 * bandwidthDelta f0 f1)| ≤
      0.05 * ((f1 - f0) / 33) := by
    intro k
    rw [bandwidthDelta_eq]
    split
    · rw [abs_zero]; linarith
    · obtain ⟨h1, h2⟩ := hr k
      have h3 : 0 ≤ (f1 - f0) / 33 - 1 := by linarith
      rw [abs_mul, abs_mul, abs_of_nonneg h3, abs_of_nonneg (by norm_num : (0 : ℝ) ≤ 0.1)]
      have : |rnd k - 0.5| ≤ 0.5 := abs_le.2 ⟨by linarith, by linarith⟩
      calc _ ≤ 0.5 * (0.1 * ((f1 - f0) / 33 - 1)) :=
            mul_le_mul_of_nonneg_right this (mul_nonneg (by norm_num) h3)
        _ ≤ _ := by linarith
  have h1 := abs_le.1 (hj (i + 1))
  have h2 := abs_le.1 (hj i)
  unfold gfrequency
  have hl : linspace f0 f1 33 (i + 1) - linspace f0 f1 33 i = (f1 - f0) / 32 := by
    unfold linspace
    push_cast
    norm_num
    ring
  linarith [h1.1, h2.2]

theorem gfrequency_first (f0 f1 : ℝ) (rnd : Nat → ℝ) : gfrequency f0 f1 rnd 0 = f0 := by
  simp [gfrequency, linspace]

theorem gfrequency_last (f0 f1 : ℝ) (rnd : Nat → ℝ) : gfrequency f0 f1 rnd 32 = f1 := by
  simp [gfrequency, linspace]
  norm_num
  ring

theorem mono_of_steps {g : Nat → ℝ} (h : ∀ i < 32, 0 ≤ g (i + 1) - g i) (i j : Nat) (hij : i ≤ j) (hj : j ≤ 32) :
    g i ≤ g j := by
  induction j with
  | zero => rw [Nat.le_zero.1 hij]
  | succ n ih =>
    rcases Nat.eq_or_lt_of_le hij with rfl | hlt
    · exact le_rfl
    · have := h n (by omega)
      linarith [ih (by omega) (by omega)]

theorem coordsDeg_eq (npix i : Nat) (hn : npix ≠ 1) :
    coordsDeg npix i = -1.5 + i * (3 / ((npix : ℝ) - 1)) := by
  unfold coordsDeg linspace
  rw [if_neg hn]
  norm_num

theorem axisGrid_sky (npix : Nat) (f0 f1 : ℝ) (rnd : Nat → ℝ) (hodd : npix % 2 = 1) (hn : npix ≠ 1) (c : List Char)
    (hc : c ≠ "FREQ".toList) (i : Nat) :
    axisGrid (factoryHeader npix f0 f1 rnd) (skyAxis c npix) c npix (((1 + npix / 2 : Nat) : ℝ) - 1) i =
      deg2rad (coordsDeg npix i) := by
  have hirr : isIrregular (factoryHeader npix f0 f1 rnd) c npix = false := by
    unfold isIrregular
    rw [List.all_eq_false]
    exact ⟨0, by simp; omega, by
      simp only [factoryHeader]
      rw [if_neg (fun h => hc h.1)]
      decide⟩
  have hu : upper (strip "DEG".toList) = "DEG".toList := by decide
  unfold axisGrid
  simp only [skyAxis, Option.getD_some, hirr, Bool.false_eq_true, if_false, hu, if_true]
  obtain ⟨k, hk⟩ : ∃ k, npix = 2 * k + 1 := ⟨npix / 2, by omega⟩
  have hk1 : k ≠ 0 := by omega
  rw [coordsDeg_eq _ _ hn, coordsDeg_eq _ _ hn]
  unfold deg2rad
  have : npix / 2 = k := by omega
  rw [this, hk]
  have hkr : (k : ℝ) ≠ 0 := by exact_mod_cast hk1
  rw [show 1 + k - 1 = k by omega, show (3.0 : ℝ) = 3 by norm_num, show (1.5 : ℝ) = 3 / 2 by norm_num]
  push_cast
  field_simp
  ring

/-! ### C140 -/

/-- **C140** With an odd number of at least three pixels, a known polarisation type and element type, a valid schema and
frequencies that span 33 Hz or more, the call succeeds, whatever the random numbers are. -/
theorem C140_succeeds_partial (pol : PolType) (frequency : Option (List ℝ)) (npix : Nat) (dtype : String)
    (schema : List Char) (rnd : Nat → ℝ) (f0 f1 : ℝ) (corr : List Int) (files : List (List Char × List (List Char)))
    (hodd : npix % 2 = 1) (hn : npix ≠ 1) (hf0 : (frequency.getD defaultFrequency).head? = some f0)
    (hf1 : (frequency.getD defaultFrequency).getLast? = some f1) (hbw : 33 ≤ f1 - f0) (hr : Random rnd)
    (hc : pol.corrs = some corr) (hd : (bitpixMap.lookup dtype).isSome) (hs : beamFilenames schema corr = .ok files) :
    ∃ h beam, beamFactory pol frequency npix dtype schema rnd = .ok (h, beam, files) := by
  refine ⟨factoryHeader npix f0 f1 rnd, factoryBeam npix f0 f1 rnd, ?_⟩
  unfold beamFactory
  rw [if_neg (by simp [hodd])]
  simp only [hf0, hf1, hc]
  rw [if_neg hn, if_neg (by simpa using hd), if_pos (fun i _ => gfrequency_step f0 f1 rnd hr hbw i), hs]

/-- **C140** Frequencies that span less can fail: with a single channel the jitter, which is scaled with
`bandwidth / 33 - 1 = -1`, makes the grid decrease for some random numbers (for all but a null set, in fact) and the
call ends with `AssertionError`. -/
theorem C140_succeeds_violated : ∃ rnd, Random rnd ∧
    beamFactory .linear (some [1000000000]) 257 "float64" "test_beam_$(corr)_$(reim).fits".toList rnd =
      .error .assertionError := by
  refine ⟨fun _ => 3 / 4, fun _ => ⟨by norm_num, by norm_num⟩, ?_⟩
  unfold beamFactory
  rw [if_neg (by decide)]
  simp only [Option.getD_some, List.head?_cons, List.getLast?_singleton, PolType.corrs]
  rw [if_neg (by decide), if_neg (by decide), if_neg]
  intro h
  have := h 0 (by omega)
  rw [gfrequency_first] at this
  unfold gfrequency at this
  rw [bandwidthDelta_eq] at this
  norm_num [linspace] at this

/-- **C140** What a successful call writes: `beam_grids` applied to its header finds the axes 1, 2 and 3; the sky axes have `npix`
points from -1.5 to 1.5 degrees, in radians, with the middle pixel at zero (times the requested signs); the frequency
axis has 33 points that do not decrease, start at the first frequency and end at the last one. The file names are those
of `beam_filenames`. -/
theorem C140_round_trip (pol : PolType) (frequency : Option (List ℝ)) (npix : Nat) (dtype : String) (schema : List Char)
    (rnd : Nat → ℝ) (h : Header) (beam : Nat → Nat → Nat → ℝ) (files : List (List Char × List (List Char)))
    (hok : beamFactory pol frequency npix dtype schema rnd = .ok (h, beam, files)) (la ma : Option (List Char)) :
    ∃ gl gm gf f0 f1 corr, beamGrids h la ma = .ok ((1, npix, gl), (2, npix, gm), (3, 33, gf)) ∧
      npix % 2 = 1 ∧ 3 ≤ npix ∧
      (∀ i < npix, gl i = signOf la * ((-1.5 + 3 * (i / ((npix : ℝ) - 1))) * (Real.pi / 180)) ∧
        gm i = signOf ma * ((-1.5 + 3 * (i / ((npix : ℝ) - 1))) * (Real.pi / 180))) ∧
      gl (npix / 2) = 0 ∧ gm (npix / 2) = 0 ∧
      (frequency.getD defaultFrequency).head? = some f0 ∧ (frequency.getD defaultFrequency).getLast? = some f1 ∧
      gf 0 = f0 ∧ gf 32 = f1 ∧ (∀ i j, i ≤ j → j < 33 → gf i ≤ gf j) ∧
      pol.corrs = some corr ∧ beamFilenames schema corr = .ok files := by
  unfold beamFactory at hok
  split at hok
  · cases hok
  rename_i hodd
  have hodd : npix % 2 = 1 := by omega
  simp only at hok
  split at hok
  · rename_i f0 f1 hf0 hf1
    split at hok
    · cases hok
    rename_i corr hcorr
    split at hok
    · cases hok
    rename_i hn
    split at hok
    · cases hok
    split at hok
    · rename_i hmono
      split at hok
      · cases hok
      rename_i files' hfiles
      cases hok
      have h3 : 3 ≤ npix := by omega
      have hgrid : ∀ i, axisGrid (factoryHeader npix f0 f1 rnd) (skyAxis "X".toList npix) "X".toList npix
          (((1 + npix / 2 : Nat) : ℝ) - 1) i = deg2rad (coordsDeg npix i) :=
        axisGrid_sky npix f0 f1 rnd hodd hn _ (by decide)
      have hgridY : ∀ i, axisGrid (factoryHeader npix f0 f1 rnd) (skyAxis "Y".toList npix) "Y".toList npix
          (((1 + npix / 2 : Nat) : ℝ) - 1) i = deg2rad (coordsDeg npix i) :=
        axisGrid_sky npix f0 f1 rnd hodd hn _ (by decide)
      have hirr : isIrregular (factoryHeader npix f0 f1 rnd) "FREQ".toList 33 = true := by
        unfold isIrregular
        rw [List.all_eq_true]
        intro j hj
        have := List.mem_range.1 hj
        simp only [factoryHeader, true_and]
        rw [if_pos ⟨by omega, by omega⟩]
        rfl
      have hgf : ∀ i < 33, axisGrid (factoryHeader npix f0 f1 rnd) (freqAxis f0 f1) "FREQ".toList 33 (1 - 1) i =
          gfrequency f0 f1 rnd i := by
        intro i hi
        unfold axisGrid
        simp only [hirr, if_true]
        simp only [factoryHeader, true_and]
        rw [if_pos ⟨by omega, by omega⟩]
        rfl
      have hax : beamAxes (factoryHeader npix f0 f1 rnd) = .ok [
          ⟨npix, "X".toList, axisGrid (factoryHeader npix f0 f1 rnd) (skyAxis "X".toList npix) "X".toList npix
            (((1 + npix / 2 : Nat) : ℝ) - 1)⟩,
          ⟨npix, "Y".toList, axisGrid (factoryHeader npix f0 f1 rnd) (skyAxis "Y".toList npix) "Y".toList npix
            (((1 + npix / 2 : Nat) : ℝ) - 1)⟩,
          ⟨33, "FREQ".toList, axisGrid (factoryHeader npix f0 f1 rnd) (freqAxis f0 f1) "FREQ".toList 33 (1 - 1)⟩] := by
        have s1 : strip "X".toList = "X".toList := by decide
        have s2 : strip "Y".toList = "Y".toList := by decide
        have s3 : strip "FREQ".toList = "FREQ".toList := by decide
        have a1 : (factoryHeader npix f0 f1 rnd).axis 1 = skyAxis "X".toList npix := rfl
        have a2 : (factoryHeader npix f0 f1 rnd).axis 2 = skyAxis "Y".toList npix := rfl
        have a3 : (factoryHeader npix f0 f1 rnd).axis 3 = freqAxis f0 f1 := rfl
        unfold beamAxes
        rw [show (factoryHeader npix f0 f1 rnd).naxis = some 3 from rfl]
        simp only [show List.range 3 = [0, 1, 2] from rfl, List.map_cons, List.map_nil, Nat.reduceAdd, a1, a2, a3]
        rw [if_neg (by simp [skyAxis, freqAxis]), if_neg (by simp [skyAxis, freqAxis]),
          if_neg (by simp [skyAxis, freqAxis])]
        have c1 : (skyAxis "X".toList npix).ctype = some "X".toList := rfl
        have c2 : (skyAxis "Y".toList npix).ctype = some "Y".toList := rfl
        have c3 : (freqAxis f0 f1).ctype = some "FREQ".toList := rfl
        have n1 : (skyAxis "X".toList npix).naxis = some npix := rfl
        have n2 : (skyAxis "Y".toList npix).naxis = some npix := rfl
        have n3 : (freqAxis f0 f1).naxis = some 33 := rfl
        have p1 : (skyAxis "X".toList npix).crpix = some ((1 + npix / 2 : Nat) : ℝ) := rfl
        have p2 : (skyAxis "Y".toList npix).crpix = some ((1 + npix / 2 : Nat) : ℝ) := rfl
        have p3 : (freqAxis f0 f1).crpix = some 1 := rfl
        simp only [c1, c2, c3, n1, n2, n3, p1, p2, p3, Option.getD_some, s1, s2, s3]
      have hfind : ∀ g1 g2 g3, findAxes [⟨npix, "X".toList, g1⟩, ⟨npix, "Y".toList, g2⟩, ⟨33, "FREQ".toList, g3⟩] =
          (some 0, some 1, some 2) := by
        intro g1 g2 g3
        unfold findAxes
        simp only [List.length_cons, List.length_nil, Nat.reduceAdd, List.map_cons, List.map_nil]
        decide
      have hmid : coordsDeg npix (npix / 2) = 0 := by
        rw [coordsDeg_eq _ _ hn]
        obtain ⟨k, hk⟩ : ∃ k, npix = 2 * k + 1 := ⟨npix / 2, by omega⟩
        have hk1 : (k : ℝ) ≠ 0 := by
          have : k ≠ 0 := by omega
          exact_mod_cast this
        rw [show npix / 2 = k by omega, hk, show (1.5 : ℝ) = 3 / 2 by norm_num]
        push_cast
        field_simp
        ring
      refine ⟨fun j => deg2rad (coordsDeg npix j) * axisSign la, fun j => deg2rad (coordsDeg npix j) * axisSign ma,
        axisGrid (factoryHeader npix f0 f1 rnd) (freqAxis f0 f1) "FREQ".toList 33 (1 - 1), f0, f1, corr,
        ?_, hodd, h3, ?_, ?_, ?_, hf0, hf1, ?_, ?_, ?_, hcorr, hfiles⟩
      · unfold beamGrids
        rw [hax]
        simp only [hfind]
        simp only [List.map_cons, List.map_nil, List.getD_cons_zero, List.getD_cons_succ, funext hgrid, funext hgridY]
      · intro i _
        dsimp only
        rw [axisSign_eq, axisSign_eq, coordsDeg_eq _ _ hn]
        unfold deg2rad
        constructor <;> ring
      · simp only [hmid]
        unfold deg2rad
        ring
      · simp only [hmid]
        unfold deg2rad
        ring
      · rw [hgf 0 (by omega), gfrequency_first]
      · rw [hgf 32 (by omega), gfrequency_last]
      · intro i j hij hj
        rw [hgf i (by omega), hgf j hj]
        exact mono_of_steps hmono i j hij (by omega)
    · cases hok
  · cases hok

/-- **C140** The header contradicts itself: read as a regular axis, by its `CRVAL3`, `CRPIX3` and `CDELT3`, the frequency axis never
ends at the last frequency, as `bandwidth / 33 - 1` is written for `bandwidth / (33 - 1)`. -/
theorem C140_cdelt_violated (npix : Nat) (f0 f1 : ℝ) (rnd : Nat → ℝ) (hf : f0 ≤ f1) :
    fitsCoord ((factoryHeader npix f0 f1 rnd).axis 3) 33 ≠ f1 := by
  have : (factoryHeader npix f0 f1 rnd).axis 3 = freqAxis f0 f1 := rfl
  rw [this]
  unfold fitsCoord freqAxis
  rw [bandwidthDelta_eq]
  have hu : ¬ (upper (strip ((none : Option (List Char)).getD [])) = "DEG".toList) := by decide
  simp only [hu, if_false, Option.getD_some]
  simp only [linspace]
  norm_num
  intro h
  linarith

/-- **C140** The beam: 1 at the middle pixel, positive and at most 1 everywhere, the same at points that are mirrored at the
middle or exchange their coordinates, and not larger farther from the middle. -/
theorem C140_beam (pol : PolType) (frequency : Option (List ℝ)) (npix : Nat) (dtype : String) (schema : List Char)
    (rnd : Nat → ℝ) (h : Header) (beam : Nat → Nat → Nat → ℝ) (files : List (List Char × List (List Char)))
    (hpos : ∀ f ∈ frequency.getD defaultFrequency, 0 ≤ f)
    (hok : beamFactory pol frequency npix dtype schema rnd = .ok (h, beam, files)) (ch : Nat) (hch : ch < 33) :
    beam ch (npix / 2) (npix / 2) = 1 ∧
    (∀ i j, 0 < beam ch i j ∧ beam ch i j ≤ 1 ∧ beam ch j i = beam ch i j) ∧
    (∀ i j, i < npix → beam ch (npix - 1 - i) j = beam ch i j) ∧
    (∀ i j i' j', npix / 2 ≤ i → npix / 2 ≤ j → i ≤ i' → j ≤ j' → beam ch i' j' ≤ beam ch i j) := by
  unfold beamFactory at hok
  split at hok
  · cases hok
  rename_i hodd
  have hodd : npix % 2 = 1 := by omega
  simp only at hok
  split at hok
  · rename_i f0 f1 hf0 hf1
    split at hok
    · cases hok
    split at hok
    · cases hok
    rename_i hn
    split at hok
    · cases hok
    split at hok
    · rename_i hmono
      split at hok
      · cases hok
      cases hok
      have hf0' : 0 ≤ f0 := hpos f0 (List.mem_of_mem_head? hf0)
      have hg : 0 ≤ gfrequency f0 f1 rnd ch := by
        have := mono_of_steps hmono 0 ch (by omega) (by omega)
        rw [gfrequency_first] at this
        linarith
      obtain ⟨k, hk⟩ : ∃ k, npix = 2 * k + 1 := ⟨npix / 2, by omega⟩
      have hk1 : (k : ℝ) ≠ 0 := by
        have : k ≠ 0 := by omega
        exact_mod_cast this
      have hkp : (0 : ℝ) < k := by
        have : 0 < k := by omega
        exact_mod_cast this
      have hmidk : npix / 2 = k := by omega
      have hco : ∀ i : Nat, deg2rad (coordsDeg npix i) = ((i : ℝ) - k) * (1.5 / k * (Real.pi / 180)) := by
        intro i
        rw [coordsDeg_eq _ _ hn, hk]
        unfold deg2rad
        push_cast
        field_simp
        ring
      have hpi := Real.pi_gt_three
      let r : Nat → Nat → ℝ := fun i j =>
        Real.sqrt (deg2rad (coordsDeg npix i) ^ 2 + deg2rad (coordsDeg npix j) ^ 2)
      let a : Nat → Nat → ℝ := fun i j => min (65 * gfrequency f0 f1 rnd ch * 1e-9 * r i j) 1.0881
      have ha : ∀ i j, factoryBeam npix f0 f1 rnd ch i j = Real.cos (a i j) ^ 3 := fun i j => rfl
      have ha0 : ∀ i j, 0 ≤ a i j := fun i j =>
        le_min (mul_nonneg (mul_nonneg (mul_nonneg (by norm_num) hg) (by norm_num)) (Real.sqrt_nonneg _)) (by norm_num)
      have ha1 : ∀ i j, a i j ≤ 1.0881 := fun i j => min_le_right _ _
      have hcos : ∀ i j, 0 < Real.cos (a i j) := fun i j =>
        Real.cos_pos_of_mem_Ioo ⟨by linarith [ha0 i j], by linarith [ha1 i j]⟩
      refine ⟨?_, fun i j => ⟨?_, ?_, ?_⟩, ?_, ?_⟩
      · rw [ha]
        have : a (npix / 2) (npix / 2) = 0 := by
          simp only [a, r, hco, hmidk, sub_self, zero_mul]
          norm_num
        rw [this, Real.cos_zero, one_pow]
      · rw [ha]; exact pow_pos (hcos i j) 3
      · rw [ha]; exact pow_le_one₀ (hcos i j).le (Real.cos_le_one _)
      · rw [ha, ha]
        simp only [a, r, add_comm]
      · intro i j hi
        rw [ha, ha]
        have : deg2rad (coordsDeg npix (npix - 1 - i)) ^ 2 = deg2rad (coordsDeg npix i) ^ 2 := by
          rw [hco, hco]
          have : ((npix - 1 - i : Nat) : ℝ) = 2 * k - i := by
            rw [hk, show 2 * k + 1 - 1 - i = 2 * k - i by omega, Nat.cast_sub (by omega)]
            push_cast
            ring
          rw [this]
          ring
        simp only [a, r, this]
      · intro i j i' j' hi hj hii hjj
        rw [ha, ha]
        have hmono : a i j ≤ a i' j' := by
          refine min_le_min_right _ (mul_le_mul_of_nonneg_left (Real.sqrt_le_sqrt ?_)
            (mul_nonneg (mul_nonneg (by norm_num) hg) (by norm_num)))
          have hsq : ∀ m m' : Nat, k ≤ m → m ≤ m' → deg2rad (coordsDeg npix m) ^ 2 ≤ deg2rad (coordsDeg npix m') ^ 2 := by
            intro m m' h1 h2
            have h1' : (k : ℝ) ≤ m := by exact_mod_cast h1
            have h2' : (m : ℝ) ≤ m' := by exact_mod_cast h2
            rw [hco, hco]
            have hc : 0 ≤ 1.5 / (k : ℝ) * (Real.pi / 180) := by positivity
            exact pow_le_pow_left₀ (mul_nonneg (by linarith) hc) (mul_le_mul_of_nonneg_right (by linarith) hc) 2
          exact add_le_add (hsq i i' (by omega) hii) (hsq j j' (by omega) hjj)
        exact pow_le_pow_left₀ (hcos i' j').le
          (Real.cos_le_cos_of_nonneg_of_le_pi (ha0 i j) (by linarith [ha1 i' j']) hmono) 3
    · cases hok
  · cases hok

/-- The default arguments, with every random number 1/2, succeed. -/
example : ∃ h beam files, beamFactory .linear (some [856000000, 1712000000]) 257 "float64"
    "test_beam_$(corr)_$(reim).fits".toList (fun _ => 1 / 2) = .ok (h, beam, files) := by
  obtain ⟨h, beam, hb⟩ := C140_succeeds_partial .linear (some [856000000, 1712000000]) 257 "float64"
    "test_beam_$(corr)_$(reim).fits".toList (fun _ => 1 / 2) 856000000 1712000000 [9, 10, 11, 12] _ (by decide)
    (by decide) rfl rfl (by norm_num) (fun _ => ⟨by norm_num, by norm_num⟩) rfl (by decide) rfl
  exact ⟨h, beam, _, hb⟩

/-- Specification: the names of the correlations of a polarisation type. -/
def handNames : PolType → List (List Char)
  | .linear => ["xx".toList, "xy".toList, "yx".toList, "yy".toList]
  | .circular => ["rr".toList, "rl".toList, "lr".toList, "ll".toList]
  | .other => []

/-- **C140** A successful call names two files for each of the four correlations of its polarisation type and no others. -/
theorem C140_names (pol : PolType) (frequency : Option (List ℝ)) (npix : Nat) (dtype : String) (schema : List Char)
    (rnd : Nat → ℝ) (h : Header) (beam : Nat → Nat → Nat → ℝ) (files : List (List Char × List (List Char)))
    (hok : beamFactory pol frequency npix dtype schema rnd = .ok (h, beam, files)) :
    (files.map Prod.fst).Nodup ∧ (∀ k, k ∈ files.map Prod.fst ↔ k ∈ handNames pol) ∧
      ∀ n ∈ handNames pol, ∃ re im, (n, [re, im]) ∈ files ∧ reImFilenames n schema = .ok [re, im] := by
  obtain ⟨_, _, _, _, _, corr, _, _, _, _, _, _, _, _, _, _, _, hcorr, hfiles⟩ :=
    C140_round_trip pol frequency npix dtype schema rnd h beam files hok none none
  obtain ⟨names, hn, h1, h2, h3⟩ := C56_dictionary schema corr files hfiles
  have : names = handNames pol := by
    cases pol with
    | other => cases hcorr
    | linear =>
      cases hcorr
      exact Option.some.inj (hn.symm.trans (by decide +kernel))
    | circular =>
      cases hcorr
      exact Option.some.inj (hn.symm.trans (by decide +kernel))
  subst this
  exact ⟨h1, h2, h3⟩

/-- **C140** The element types that are accepted, each with the number of its bits, negative for floating point numbers, as in the
FITS standard. -/
theorem C140_types (dtype : String) (code : Int) :
    bitpixMap.lookup dtype = some code ↔
      (dtype, code) ∈ [("int8", 8), ("uint8", 8), ("int16", 16), ("uint16", 16), ("int32", 32), ("uint32", 32),
        ("float32", -32), ("float64", (-64 : Int))] := by
  unfold bitpixMap
  constructor
  · intro h
    simp only [List.lookup] at h
    repeat' split at h
    all_goals simp_all
  · intro h
    simp only [List.mem_cons, Prod.mk.injEq, List.not_mem_nil, or_false] at h
    rcases h with ⟨rfl, rfl⟩ | ⟨rfl, rfl⟩ | ⟨rfl, rfl⟩ | ⟨rfl, rfl⟩ | ⟨rfl, rfl⟩ | ⟨rfl, rfl⟩ | ⟨rfl, rfl⟩ | ⟨rfl, rfl⟩ <;> decide

/-- **C140** The other errors. -/
theorem C140_errors (pol : PolType) (frequency : Option (List ℝ)) (npix : Nat) (dtype : String) (schema : List Char)
    (rnd : Nat → ℝ) :
    (npix % 2 = 0 → beamFactory pol frequency npix dtype schema rnd = .error .valueError) ∧
    (npix % 2 = 1 → frequency = some [] → beamFactory pol frequency npix dtype schema rnd = .error .indexError) ∧
    (npix % 2 = 1 → frequency ≠ some [] → pol = .other →
      beamFactory pol frequency npix dtype schema rnd = .error .valueError) ∧
    (frequency ≠ some [] → pol ≠ .other → beamFactory pol frequency 1 dtype schema rnd = .error .zeroDivisionError) ∧
    (npix % 2 = 1 → npix ≠ 1 → frequency ≠ some [] → pol ≠ .other → bitpixMap.lookup dtype = none →
      beamFactory pol frequency npix dtype schema rnd = .error .keyError) := by
  have hne : frequency ≠ some [] → ∃ f0 f1, (frequency.getD defaultFrequency).head? = some f0 ∧
      (frequency.getD defaultFrequency).getLast? = some f1 := by
    intro h
    have : frequency.getD defaultFrequency ≠ [] := by
      cases frequency with
      | none =>
        intro h0
        have := congrArg List.length h0
        simp [defaultFrequency] at this
      | some l => intro h0; exact h (by rw [← h0]; rfl)
    refine ⟨_, _, List.head?_eq_some_head this, List.getLast?_eq_some_getLast this⟩
  have hpol : pol ≠ .other → ∃ c, pol.corrs = some c := by
    intro h
    cases pol with
    | linear => exact ⟨_, rfl⟩
    | circular => exact ⟨_, rfl⟩
    | other => exact absurd rfl h
  refine ⟨fun h => ?_, fun h h1 => ?_, fun h h1 h2 => ?_, fun h1 h2 => ?_, fun h h1 h2 h3 h4 => ?_⟩
  · unfold beamFactory
    rw [if_pos (by omega)]
  · unfold beamFactory
    rw [if_neg (by omega), h1]
    rfl
  · obtain ⟨f0, f1, e0, e1⟩ := hne h1
    unfold beamFactory
    rw [if_neg (by omega), h2]
    simp only [e0, e1, PolType.corrs]
  · obtain ⟨f0, f1, e0, e1⟩ := hne h1
    obtain ⟨c, hc⟩ := hpol h2
    unfold beamFactory
    rw [if_neg (by decide)]
    simp only [e0, e1, hc, if_true]
  · obtain ⟨f0, f1, e0, e1⟩ := hne h2
    obtain ⟨c, hc⟩ := hpol h3
    unfold beamFactory
    rw [if_neg (by omega)]
    simp only [e0, e1, hc, h4]
    rw [if_neg h1]
    rfl

end Verif.Util.Beams
