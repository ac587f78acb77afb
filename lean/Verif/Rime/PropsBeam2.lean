/-
C42, continued: beam cubes that are linear are interpolated exactly.
-/
import Verif.Rime.PropsBeam
import Mathlib.Tactic.LinearCombination
import Mathlib.Tactic.NormNum

set_option autoImplicit false

namespace Verif.Rime

/-- Specification: the fractional index of a coordinate along an axis of `n` grid lines between two extents. -/
noncomputable def gridIndex (n : Nat) (lo hi v : ℝ) : ℝ := (v - lo) / (hi - lo) * ((n : ℝ) - 1)

private theorem axisPos_inside {n : Nat} (hn : 2 ≤ n) {lo hi v : ℝ} (hext : lo < hi) (h1 : lo ≤ v) (h2 : v ≤ hi) :
    (1 - (axisPos n lo hi v).2.2) * ((axisPos n lo hi v).1 : ℝ) +
      (axisPos n lo hi v).2.2 * ((axisPos n lo hi v).2.1 : ℝ) = gridIndex n lo hi v := by
  have hd : 0 < hi - lo := by linarith
  have hn1 : (0 : ℝ) ≤ (n : ℝ) - 1 := by
    have : (2 : ℝ) ≤ n := by exact_mod_cast hn
    linarith
  have hcast : (((n : Int) - 1 : Int) : ℝ) = (n : ℝ) - 1 := by push_cast; ring
  have hx : ((n : ℝ) - 1) / (hi - lo) * (v - lo) = gridIndex n lo hi v := by unfold gridIndex; ring
  have h0 : 0 ≤ gridIndex n lo hi v := mul_nonneg (div_nonneg (by linarith) hd.le) hn1
  have hle : gridIndex n lo hi v ≤ (n : ℝ) - 1 := by
    unfold gridIndex
    have : (v - lo) / (hi - lo) ≤ 1 := by rw [div_le_one hd]; linarith
    nlinarith
  simp only [axisPos]
  rw [hcast, hx, min_eq_left hle, max_eq_right h0]
  generalize gridIndex n lo hi v = x at h0 hle
  rcases lt_or_ge (⌊x⌋ + 1) ((n : Int)) with h | h
  · rw [min_eq_left (by omega)]
    push_cast
    ring
  · have hfl : (n : Int) - 1 ≤ ⌊x⌋ := by omega
    have hge : (n : ℝ) - 1 ≤ x := by
      have : (((n : Int) - 1 : Int) : ℝ) ≤ ⌊x⌋ := by exact_mod_cast hfl
      rw [hcast] at this
      exact this.trans (Int.floor_le x)
    have hxe : x = (n : ℝ) - 1 := le_antisymm hle hge
    have hfx : (⌊x⌋ : ℝ) = x := by
      have : x = (((n : Int) - 1 : Int) : ℝ) := by rw [hcast, hxe]
      rw [this, Int.floor_intCast]
    rw [hfx]
    ring

/-- Cubes of non-negative real numbers need no normalisation. -/
theorem beamValue_nonneg {cells : List ((Int × Int × Int) × ℝ)} {beam : Int → Int → Int → ℂ} (x : Int → Int → Int → ℝ)
    (hb : ∀ e ∈ cells, beam e.1.1 e.1.2.1 e.1.2.2 = (x e.1.1 e.1.2.1 e.1.2.2 : ℝ) ∧ 0 ≤ x e.1.1 e.1.2.1 e.1.2.2 ∧ 0 ≤ e.2) :
    beamValue cells beam = (((cells.map fun e => e.2 * x e.1.1 e.1.2.1 e.1.2.2).sum : ℝ) : ℂ) := by
  have h1 : (cells.map fun e => e.2 * ‖beam e.1.1 e.1.2.1 e.1.2.2‖) = cells.map fun e => e.2 * x e.1.1 e.1.2.1 e.1.2.2 := by
    refine List.map_congr_left fun e he => ?_
    obtain ⟨e1, e2, _⟩ := hb e he
    rw [e1, Complex.norm_real, Real.norm_of_nonneg e2]
  have h2 : (cells.map fun e => (e.2 : ℂ) * beam e.1.1 e.1.2.1 e.1.2.2) =
      (cells.map fun e => e.2 * x e.1.1 e.1.2.1 e.1.2.2).map Complex.ofReal := by
    rw [List.map_map]
    refine List.map_congr_left fun e he => ?_
    obtain ⟨e1, _, _⟩ := hb e he
    simp only [Function.comp]
    rw [e1]
    push_cast
    rfl
  have hsum : ∀ l : List ℝ, (l.map Complex.ofReal).sum = ((l.sum : ℝ) : ℂ) := by
    intro l; induction l with
    | nil => simp
    | cons x xs ih => simp [ih]
  have hnn : 0 ≤ (cells.map fun e => e.2 * x e.1.1 e.1.2.1 e.1.2.2).sum := by
    refine List.sum_nonneg fun y hy => ?_
    obtain ⟨e, he, rfl⟩ := List.mem_map.1 hy
    obtain ⟨_, e2, e3⟩ := hb e he
    exact mul_nonneg e3 e2
  unfold beamValue
  simp only
  rw [foldl_acc, h1, h2, hsum]
  simp only [zero_add]
  rw [Complex.norm_real, Real.norm_of_nonneg hnn]
  split_ifs with h
  · rw [h]; simp
  · rw [div_self h]; simp

/-- **C42** Cubes of non-negative numbers that depend linearly on the two indices and on frequency are interpolated exactly
everywhere inside the extents and the frequency grid (without rotation, pointing error or antenna scaling). -/
theorem C42_linear (lw mh nud : Nat) (hlw : 2 ≤ lw) (hmh : 2 ≤ mh) (hnud : 2 ≤ nud) (a b c d : ℝ)
    (ext : (ℝ × ℝ) × (ℝ × ℝ)) (hl : ext.1.1 < ext.1.2) (hm : ext.2.1 < ext.2.2)
    (grid : Int → ℝ) (hg : Increasing grid nud) (hpos : grid ((nud : Int) - 1) ≠ 0)
    (beam : Int → Int → Int → ℂ)
    (hbeam : ∀ i j k : Int, 0 ≤ i → i < lw → 0 ≤ j → j < mh → 0 ≤ k → k < nud →
      beam i j k = ((a + b * i + c * j + d * grid k : ℝ) : ℂ) ∧ 0 ≤ a + b * i + c * j + d * grid k)
    (l m freq : ℝ) (hl1 : ext.1.1 ≤ l) (hl2 : l ≤ ext.1.2) (hm1 : ext.2.1 ≤ m) (hm2 : m ≤ ext.2.2)
    (hf1 : grid 0 ≤ freq) (hf2 : freq ≤ grid ((nud : Int) - 1)) :
    beamCubeDde lw mh nud beam ext grid l m 0 0 0 1 1 freq =
      .ok ((a + b * gridIndex lw ext.1.1 ext.1.2 l + c * gridIndex mh ext.2.1 ext.2.2 m + d * freq : ℝ) : ℂ) := by
  obtain ⟨scale, w, pos, he, h1, h2, h3, h4, hin, -, -⟩ := C41_freq_grid grid nud hnud hg freq hpos
  obtain ⟨hs, hb1, hb2, hb3⟩ := hin hf1 hf2
  have hread := C42_reads_inside lw mh nud hlw hmh hnud ext grid hg hpos l m 0 0 0 1 1 freq
  unfold beamCubeDde
  rw [if_neg (by omega)]
  refine congrArg Except.ok ?_
  rw [beamValue_nonneg (fun i j k => a + b * i + c * j + d * grid k) fun e hmem => ?_]
  · congr 1
    unfold beamRead
    simp only [he, hs, beamCoords, Real.cos_zero, Real.sin_zero, mul_one, mul_zero, add_zero, sub_zero, zero_add]
    have p1 := axisPos_inside hlw hl hl1 hl2
    have p2 := axisPos_inside hmh hm hm1 hm2
    generalize axisPos lw ext.1.1 ext.1.2 l = pl at p1
    generalize axisPos mh ext.2.1 ext.2.2 m = pm at p2
    simp only [beamCells, List.map_cons, List.map_nil, List.sum_cons, List.sum_nil]
    linear_combination b * p1 + c * p2 + d * hb3
  · obtain ⟨⟨a1, a2⟩, ⟨a3, a4⟩, ⟨a5, a6⟩, a7⟩ := hread.2.1 e hmem
    obtain ⟨b1, b2⟩ := hbeam _ _ _ a1 a2 a3 a4 a5 a6
    exact ⟨b1, b2, a7⟩

/-- Whatever the beam, if it is real its interpolated value lies between its smallest and its largest value. -/
theorem C42_between (lw mh nud : Nat) (hlw : 2 ≤ lw) (hmh : 2 ≤ mh) (hnud : 2 ≤ nud) (beam : Int → Int → Int → ℂ)
    (x : Int → Int → Int → ℝ) (ext : (ℝ × ℝ) × (ℝ × ℝ)) (grid : Int → ℝ) (hg : Increasing grid nud) (hpos : grid ((nud : Int) - 1) ≠ 0)
    (lo hi : ℝ) (h0 : 0 ≤ lo)
    (hb : ∀ i j k : Int, 0 ≤ i → i < lw → 0 ≤ j → j < mh → 0 ≤ k → k < nud →
      beam i j k = (x i j k : ℂ) ∧ lo ≤ x i j k ∧ x i j k ≤ hi)
    (l m pa pe0 pe1 as0 as1 freq : ℝ) :
    ∃ v : ℝ, beamCubeDde lw mh nud beam ext grid l m pa pe0 pe1 as0 as1 freq = .ok (v : ℂ) ∧
      lo ≤ v ∧ v ≤ hi := by
  have hread := C42_reads_inside lw mh nud hlw hmh hnud ext grid hg hpos l m pa pe0 pe1 as0 as1 freq
  unfold beamCubeDde
  rw [if_neg (by omega)]
  generalize beamRead lw mh nud ext grid l m pa pe0 pe1 as0 as1 freq = cells at hread
  have hin : ∀ e ∈ cells, beam e.1.1 e.1.2.1 e.1.2.2 = (x e.1.1 e.1.2.1 e.1.2.2 : ℂ) ∧ lo ≤ x e.1.1 e.1.2.1 e.1.2.2 ∧ x e.1.1 e.1.2.1 e.1.2.2 ≤ hi ∧ 0 ≤ e.2 := by
    intro e he
    obtain ⟨⟨a1, a2⟩, ⟨a3, a4⟩, ⟨a5, a6⟩, a7⟩ := hread.2.1 e he
    obtain ⟨b1, b2, b3⟩ := hb _ _ _ a1 a2 a3 a4 a5 a6
    exact ⟨b1, b2, b3, a7⟩
  refine ⟨(cells.map fun e => e.2 * x e.1.1 e.1.2.1 e.1.2.2).sum, ?_, ?_, ?_⟩
  · refine congrArg Except.ok ?_
    exact beamValue_nonneg x fun e he => ⟨(hin e he).1, h0.trans (hin e he).2.1, (hin e he).2.2.2⟩
  · have : lo = (cells.map fun e => e.2 * lo).sum := by
      rw [List.sum_map_mul_right, show (cells.map fun e => e.2).sum = 1 from hread.2.2, one_mul]
    rw [this]
    refine List.sum_le_sum fun e he => ?_
    exact mul_le_mul_of_nonneg_left (hin e he).2.1 (hin e he).2.2.2
  · have : hi = (cells.map fun e => e.2 * hi).sum := by
      rw [List.sum_map_mul_right, show (cells.map fun e => e.2).sum = 1 from hread.2.2, one_mul]
    rw [this]
    refine List.sum_le_sum fun e he => ?_
    exact mul_le_mul_of_nonneg_left (hin e he).2.2.1 (hin e he).2.2.2

/-- A cube of three by four by two cells meets the hypotheses. -/
example : ∀ i j k : Int, 0 ≤ i → i < 3 → 0 ≤ j → j < 4 → 0 ≤ k → k < 2 →
    (0 : ℝ) ≤ 5 + (-1) * i + 2 * j + 1 * ((k : ℝ) + 1) := by
  intro i j k _ h _ h' _ _
  have h1 : (i : ℝ) ≤ 2 := by exact_mod_cast (by omega : i ≤ 2)
  have h2 : (0 : ℝ) ≤ j := by exact_mod_cast (by assumption)
  have h3 : (0 : ℝ) ≤ k := by exact_mod_cast (by assumption)
  linarith

end Verif.Rime
