/-
C41, C42: beam cubes.
-/
import Verif.Rime.ModelBeam
import Mathlib.Tactic.FieldSimp
import Mathlib.Tactic.Linarith
import Mathlib.Tactic.IntervalCases

set_option autoImplicit false

namespace Verif.Rime

/-! ### C41 -/

/-- The grid increases strictly over its `nud` entries. -/
def Increasing (grid : Int → ℝ) (nud : Nat) : Prop :=
  ∀ i j : Int, 0 ≤ i → i < j → j < nud → grid i < grid j

theorem bsearch_spec (grid : Int → ℝ) (nud : Nat) (hg : Increasing grid nud) (freq : ℝ) (lower upper : Int)
    (h0 : 0 ≤ lower) (h1 : upper < nud) (h2 : lower ≤ upper + 1)
    (hlo : ∀ i, 0 ≤ i → i < lower → grid i < freq) (hhi : ∀ i, upper < i → i < nud → freq < grid i) :
    let b := bsearch grid freq lower upper
    let k := min b.1 b.2;
    (-1 ≤ k) ∧ k < nud ∧ (∀ i, 0 ≤ i → i ≤ k → grid i ≤ freq) ∧ (∀ i, k < i → i < nud → freq < grid i) := by
  fun_induction bsearch grid freq lower upper with
  | case1 lower upper h mid hlt ih =>
    refine ih (by omega) h1 (by omega) ?_ hhi
    intro i hi0 hi
    rcases lt_or_eq_of_le (show i ≤ mid by omega) with hl | rfl
    · exact (hg i mid hi0 hl (by omega)).trans hlt
    · exact hlt
  | case2 lower upper h mid hnlt hgt ih =>
    refine ih h0 (by omega) (by omega) hlo ?_
    intro i hi0 hi
    rcases lt_or_eq_of_le (show mid ≤ i by omega) with hl | rfl
    · exact lt_trans hgt (hg mid i (by omega) hl hi)
    · exact hgt
  | case3 lower upper h mid hnlt hngt =>
    have heq : grid mid = freq := le_antisymm (not_lt.1 hngt) (not_lt.1 hnlt)
    have hk : min mid upper = mid := by omega
    simp only [hk]
    refine ⟨by omega, by omega, ?_, ?_⟩
    · intro i hi0 hi
      rcases lt_or_eq_of_le hi with hl | rfl
      · exact ((hg i mid hi0 hl (by omega)).trans_eq heq).le
      · exact heq.le
    · intro i hi0 hi
      rw [← heq]
      exact hg mid i (by omega) hi0 hi
  | case4 lower upper h =>
    have hk : min lower upper = upper := by omega
    simp only [hk]
    refine ⟨by omega, by omega, ?_, hhi⟩
    intro i hi0 hi
    exact (hlo i hi0 (by omega)).le

/-- **C41** For every strictly increasing beam frequency grid of at least two entries and every frequency: the
grid position and its successor lie in the grid and the weight lies in [0, 1]; inside the grid the two grid
frequencies bracket the frequency, the weights reproduce it and the scale is one; outside, the nearest grid
frequency has all the weight and the scale is the ratio of the frequencies. -/
theorem C41_freq_grid (grid : Int → ℝ) (nud : Nat) (hn : 2 ≤ nud) (hg : Increasing grid nud) (freq : ℝ)
    (hpos : grid ((nud : Int) - 1) ≠ 0) :
    ∃ scale weight : ℝ, ∃ pos : Int, freqData grid nud freq = (scale, weight, pos) ∧
      0 ≤ pos ∧ pos + 1 < nud ∧ 0 ≤ weight ∧ weight ≤ 1 ∧
      (grid 0 ≤ freq → freq ≤ grid ((nud : Int) - 1) →
        scale = 1 ∧ grid pos ≤ freq ∧ freq ≤ grid (pos + 1) ∧
        weight * grid pos + (1 - weight) * grid (pos + 1) = freq) ∧
      (freq < grid 0 → scale = freq / grid 0 ∧ pos = 0 ∧ weight = 1) ∧
      (grid ((nud : Int) - 1) < freq →
        scale = freq / grid ((nud : Int) - 1) ∧ pos = (nud : Int) - 2 ∧ weight = 0) := by
  have hb := bsearch_spec grid nud hg freq 0 ((nud : Int) - 1) (by omega) (by omega) (by omega)
    (by intro i h1 h2; omega) (by intro i h1 h2; omega)
  unfold freqData
  simp only at hb ⊢
  generalize min (bsearch grid freq 0 ((nud : Int) - 1)).1 (bsearch grid freq 0 ((nud : Int) - 1)).2 = k at hb ⊢
  obtain ⟨hk1, hk2, hlo, hhi⟩ := hb
  by_cases h1 : k = -1
  · rw [if_pos h1]
    have h0 : freq < grid 0 := hhi 0 (by omega) (by omega)
    refine ⟨_, _, _, rfl, by omega, by omega, by norm_num, by norm_num, ?_, ?_, ?_⟩
    · intro h; exact absurd h0 (not_lt.2 h)
    · intro _; exact ⟨rfl, rfl, rfl⟩
    · intro h
      have := hg 0 ((nud : Int) - 1) (by omega) (by omega) (by omega)
      linarith
  · rw [if_neg h1]
    by_cases h2 : k + 1 = nud
    · rw [if_pos h2]
      have hk : k = (nud : Int) - 1 := by omega
      have hle : grid ((nud : Int) - 1) ≤ freq := by rw [← hk]; exact hlo k (by omega) (by omega)
      refine ⟨_, _, _, rfl, by omega, by omega, by norm_num, by norm_num, ?_, ?_, ?_⟩
      · intro _ h
        have he : freq = grid ((nud : Int) - 1) := le_antisymm h hle
        have hlt := hg ((nud : Int) - 2) ((nud : Int) - 1) (by omega) (by omega) (by omega)
        rw [show (nud : Int) - 2 + 1 = (nud : Int) - 1 by ring]
        refine ⟨by rw [he, div_self hpos], by linarith, h, ?_⟩
        rw [he]; ring
      · intro h
        have := hg 0 ((nud : Int) - 1) (by omega) (by omega) (by omega)
        linarith
      · intro _; exact ⟨rfl, rfl, rfl⟩
    · rw [if_neg h2]
      have hle : grid k ≤ freq := hlo k (by omega) le_rfl
      have hlt : freq < grid (k + 1) := hhi (k + 1) (by omega) (by omega)
      have hd : 0 < grid (k + 1) - grid k := by linarith
      refine ⟨_, _, _, rfl, by omega, by omega, div_nonneg (by linarith) hd.le, ?_, ?_, ?_, ?_⟩
      · rw [div_le_one hd]; linarith
      · intro _ _
        refine ⟨rfl, hle, hlt.le, ?_⟩
        field_simp
        ring
      · intro h
        have : grid 0 ≤ freq := hlo 0 le_rfl (by omega)
        linarith
      · intro h
        have hle' : grid (k + 1) ≤ grid ((nud : Int) - 1) := by
          rcases lt_or_eq_of_le (show k + 1 ≤ (nud : Int) - 1 by omega) with hl | he
          · exact (hg _ _ (by omega) hl (by omega)).le
          · rw [he]
        linarith

/-- The grid 1, 2, 3, ... -/
example : Increasing (fun i => (i : ℝ) + 1) 5 ∧ ((((5 : Nat) : Int) - 1 : Int) : ℝ) + 1 ≠ 0 := by
  refine ⟨fun i j _ h _ => ?_, by norm_num⟩
  have : (i : ℝ) < j := by exact_mod_cast h
  simpa using this

/-! ### C42 -/

theorem axisPos_spec {n : Nat} (hn : 2 ≤ n) (lo hi v : ℝ) :
    0 ≤ (axisPos n lo hi v).1 ∧ (axisPos n lo hi v).1 < n ∧
    0 ≤ (axisPos n lo hi v).2.1 ∧ (axisPos n lo hi v).2.1 < n ∧
    0 ≤ (axisPos n lo hi v).2.2 ∧ (axisPos n lo hi v).2.2 < 1 := by
  simp only [axisPos]
  generalize (((n : Int) - 1 : Int) : ℝ) / (hi - lo) * (v - lo) = x
  have h0 : 0 ≤ max 0 (min x (((n : Int) - 1 : Int) : ℝ)) := le_max_left _ _
  have h1 : max 0 (min x (((n : Int) - 1 : Int) : ℝ)) ≤ (((n : Int) - 1 : Int) : ℝ) := by
    refine max_le ?_ (min_le_right _ _)
    exact_mod_cast (by omega : (0 : Int) ≤ (n : Int) - 1)
  generalize max 0 (min x (((n : Int) - 1 : Int) : ℝ)) = y at h0 h1
  have hf0 : 0 ≤ ⌊y⌋ := Int.floor_nonneg.2 h0
  have hf1 : ⌊y⌋ ≤ (n : Int) - 1 := by
    have : (⌊y⌋ : ℝ) ≤ (((n : Int) - 1 : Int) : ℝ) := (Int.floor_le y).trans h1
    exact_mod_cast this
  refine ⟨hf0, by omega, by omega, by omega, ?_, ?_⟩
  · have := Int.floor_le y; linarith
  · have := Int.lt_floor_add_one y; linarith

theorem beamCells_spec {lw mh nud : Nat} {pl pm : Int × Int × ℝ} {w : ℝ} {gc0 : Int}
    (hl : 0 ≤ pl.1 ∧ pl.1 < lw ∧ 0 ≤ pl.2.1 ∧ pl.2.1 < lw ∧ 0 ≤ pl.2.2 ∧ pl.2.2 < 1)
    (hm : 0 ≤ pm.1 ∧ pm.1 < mh ∧ 0 ≤ pm.2.1 ∧ pm.2.1 < mh ∧ 0 ≤ pm.2.2 ∧ pm.2.2 < 1)
    (hw0 : 0 ≤ w) (hw1 : w ≤ 1) (hc0 : 0 ≤ gc0) (hc1 : gc0 + 1 < nud) :
    (∀ e ∈ beamCells pl pm w gc0,
      (0 ≤ e.1.1 ∧ e.1.1 < lw) ∧ (0 ≤ e.1.2.1 ∧ e.1.2.1 < mh) ∧ (0 ≤ e.1.2.2 ∧ e.1.2.2 < nud) ∧ 0 ≤ e.2) ∧
    ((beamCells pl pm w gc0).map Prod.snd).sum = 1 := by
  obtain ⟨l1, l2, l3, l4, l5, l6⟩ := hl
  obtain ⟨m1, m2, m3, m4, m5, m6⟩ := hm
  constructor
  · intro e he
    have hl' : 0 ≤ 1 - pl.2.2 := by linarith
    have hm' : 0 ≤ 1 - pm.2.2 := by linarith
    have hw' : 0 ≤ 1 - w := by linarith
    simp only [beamCells, List.mem_cons, List.not_mem_nil, or_false] at he
    rcases he with rfl | rfl | rfl | rfl | rfl | rfl | rfl | rfl <;>
      (refine ⟨⟨?_, ?_⟩, ⟨?_, ?_⟩, ⟨?_, ?_⟩, ?_⟩ <;> simp only <;> first | omega | positivity)
  · simp only [beamCells, List.map_cons, List.map_nil, List.sum_cons, List.sum_nil]
    ring

/-- **C42** For every source, time, antenna and channel: the eight cells read are inside the cube, their
weights are non-negative and add up to one. -/
theorem C42_reads_inside (lw mh nud : Nat) (hlw : 2 ≤ lw) (hmh : 2 ≤ mh) (hnud : 2 ≤ nud)
    (ext : (ℝ × ℝ) × (ℝ × ℝ)) (grid : Int → ℝ) (hg : Increasing grid nud)
    (hpos : grid ((nud : Int) - 1) ≠ 0) (l m pa pe0 pe1 as0 as1 freq : ℝ) :
    (beamRead lw mh nud ext grid l m pa pe0 pe1 as0 as1 freq).length = 8 ∧
    (∀ e ∈ beamRead lw mh nud ext grid l m pa pe0 pe1 as0 as1 freq,
      (0 ≤ e.1.1 ∧ e.1.1 < lw) ∧ (0 ≤ e.1.2.1 ∧ e.1.2.1 < mh) ∧ (0 ≤ e.1.2.2 ∧ e.1.2.2 < nud) ∧ 0 ≤ e.2) ∧
    ((beamRead lw mh nud ext grid l m pa pe0 pe1 as0 as1 freq).map Prod.snd).sum = 1 := by
  obtain ⟨scale, w, pos, he, h1, h2, h3, h4, -⟩ := C41_freq_grid grid nud hnud hg freq hpos
  refine ⟨rfl, ?_⟩
  unfold beamRead
  simp only [he]
  exact beamCells_spec (axisPos_spec hlw _ _ _) (axisPos_spec hmh _ _ _) h3 h4 h1 h2

/-- **C42** A cube with fewer than two entries along some axis is a `ValueError`; other cubes are evaluated. -/
theorem C42_size_check (lw mh nud : Nat) (beam : Int → Int → Int → ℂ) (ext : (ℝ × ℝ) × (ℝ × ℝ))
    (grid : Int → ℝ) (l m pa pe0 pe1 as0 as1 freq : ℝ) :
    (lw < 2 ∨ mh < 2 ∨ nud < 2 →
      beamCubeDde lw mh nud beam ext grid l m pa pe0 pe1 as0 as1 freq = .error .valueError) ∧
    (¬ (lw < 2 ∨ mh < 2 ∨ nud < 2) →
      ∃ z, beamCubeDde lw mh nud beam ext grid l m pa pe0 pe1 as0 as1 freq = .ok z) := by
  unfold beamCubeDde
  constructor
  · intro h; rw [if_pos h]
  · intro h; rw [if_neg h]; exact ⟨_, rfl⟩

/-- The two accumulators over any list of cells. -/
theorem foldl_acc (cells : List ((Int × Int × Int) × ℝ)) (beam : Int → Int → Int → ℂ) (a : ℝ) (c : ℂ) :
    cells.foldl (fun (acc : ℝ × ℂ) e =>
      (acc.1 + e.2 * ‖beam e.1.1 e.1.2.1 e.1.2.2‖, acc.2 + e.2 * beam e.1.1 e.1.2.1 e.1.2.2)) (a, c) =
    (a + (cells.map fun e => e.2 * ‖beam e.1.1 e.1.2.1 e.1.2.2‖).sum,
     c + (cells.map fun e => (e.2 : ℂ) * beam e.1.1 e.1.2.1 e.1.2.2).sum) := by
  induction cells generalizing a c with
  | nil => simp
  | cons e es ih =>
    rw [List.foldl_cons, ih]
    simp only [List.map_cons, List.sum_cons, add_assoc]

/-- When all cells that count (non-zero weight) hold the value `b` and the weights add to one, the normalised
value is `b`. -/
theorem beamValue_const {cells : List ((Int × Int × Int) × ℝ)} {beam : Int → Int → Int → ℂ} {b : ℂ}
    (hb : ∀ e ∈ cells, e.2 = 0 ∨ beam e.1.1 e.1.2.1 e.1.2.2 = b) (hs : (cells.map Prod.snd).sum = 1) :
    beamValue cells beam = b := by
  have h1 : (cells.map fun e => e.2 * ‖beam e.1.1 e.1.2.1 e.1.2.2‖) = cells.map fun e => e.2 * ‖b‖ := by
    refine List.map_congr_left fun e he => ?_
    rcases hb e he with h | h
    · rw [h]; ring
    · rw [h]
  have h2 : (cells.map fun e => (e.2 : ℂ) * beam e.1.1 e.1.2.1 e.1.2.2) = cells.map fun e => (e.2 : ℂ) * b := by
    refine List.map_congr_left fun e he => ?_
    rcases hb e he with h | h
    · rw [h]; simp
    · rw [h]
  have hs' : (cells.map fun e => (e.2 : ℂ)).sum = 1 := by
    have : (cells.map fun e => (e.2 : ℂ)) = (cells.map Prod.snd).map Complex.ofReal := by
      rw [List.map_map]; rfl
    rw [this]
    have hsum : ∀ l : List ℝ, (l.map Complex.ofReal).sum = ((l.sum : ℝ) : ℂ) := by
      intro l; induction l with
      | nil => simp
      | cons x xs ih => simp [ih]
    rw [hsum, hs]; simp
  unfold beamValue
  simp only
  rw [foldl_acc, h1, h2, List.sum_map_mul_right, List.sum_map_mul_right, hs']
  have hs2 : (cells.map fun e => e.2).sum = 1 := hs
  rw [hs2]
  simp only [zero_add, one_mul]
  split_ifs with h
  · rw [norm_eq_zero] at h; rw [h]; simp
  · rw [div_self h]; simp

/-- **C42** A constant cube gives its constant everywhere. -/
theorem C42_constant (lw mh nud : Nat) (hlw : 2 ≤ lw) (hmh : 2 ≤ mh) (hnud : 2 ≤ nud) (b : ℂ)
    (ext : (ℝ × ℝ) × (ℝ × ℝ)) (grid : Int → ℝ) (hg : Increasing grid nud)
    (hpos : grid ((nud : Int) - 1) ≠ 0) (l m pa pe0 pe1 as0 as1 freq : ℝ) :
    beamCubeDde lw mh nud (fun _ _ _ => b) ext grid l m pa pe0 pe1 as0 as1 freq = .ok b := by
  unfold beamCubeDde
  rw [if_neg (by omega)]
  refine congrArg Except.ok ?_
  exact beamValue_const (fun e _ => Or.inr rfl)
    (C42_reads_inside lw mh nud hlw hmh hnud ext grid hg hpos l m pa pe0 pe1 as0 as1 freq).2.2

theorem axisPos_grid {n : Nat} (_hn : 2 ≤ n) {lo hi : ℝ} (hext : lo < hi) (i : Nat) (hi' : i < n) :
    axisPos n lo hi (lo + i * ((hi - lo) / (n - 1 : ℝ))) = ((i : Int), min ((i : Int) + 1) ((n : Int) - 1), 0) := by
  have hd : hi - lo ≠ 0 := by linarith
  have hn1 : (n : ℝ) - 1 ≠ 0 := by
    have : (2 : ℝ) ≤ n := by exact_mod_cast _hn
    linarith
  have hcast : (((n : Int) - 1 : Int) : ℝ) = (n : ℝ) - 1 := by push_cast; ring
  have hx : ((n : ℝ) - 1) / (hi - lo) * (lo + i * ((hi - lo) / (n - 1 : ℝ)) - lo) = i := by
    field_simp
    ring
  have hle : (i : ℝ) ≤ (n : ℝ) - 1 := by
    have : (i : ℝ) + 1 ≤ n := by exact_mod_cast hi'
    linarith
  simp only [axisPos]
  rw [hcast, hx, min_eq_left hle, max_eq_right (by positivity)]
  simp

/-- **C42** On a grid point (no rotation, pointing error or antenna scaling) the stored value is returned. -/
theorem C42_grid_point (lw mh nud : Nat) (hlw : 2 ≤ lw) (hmh : 2 ≤ mh) (hnud : 2 ≤ nud)
    (beam : Int → Int → Int → ℂ) (ext : (ℝ × ℝ) × (ℝ × ℝ)) (hl : ext.1.1 < ext.1.2) (hm : ext.2.1 < ext.2.2)
    (grid : Int → ℝ) (hg : Increasing grid nud) (hpos : grid ((nud : Int) - 1) ≠ 0)
    (i j k : Nat) (hi : i < lw) (hj : j < mh) (hk : k < nud) :
    beamCubeDde lw mh nud beam ext grid
      (ext.1.1 + i * ((ext.1.2 - ext.1.1) / (lw - 1 : ℝ))) (ext.2.1 + j * ((ext.2.2 - ext.2.1) / (mh - 1 : ℝ)))
      0 0 0 1 1 (grid k) = .ok (beam i j k) := by
  unfold beamCubeDde
  rw [if_neg (by omega)]
  refine congrArg Except.ok ?_
  obtain ⟨scale, w, pos, he, h1, h2, h3, h4, hin, -, -⟩ := C41_freq_grid grid nud hnud hg (grid k) hpos
  have hmono : ∀ a b : Int, 0 ≤ a → a ≤ b → b < nud → grid a ≤ grid b := by
    intro a b ha hab hb
    rcases lt_or_eq_of_le hab with h | rfl
    · exact (hg a b ha h hb).le
    · exact le_rfl
  obtain ⟨hs, hb1, hb2, hb3⟩ := hin (hmono 0 k (by omega) (by omega) (by omega))
    (hmono k _ (by omega) (by omega) (by omega))
  have hstep : grid pos < grid (pos + 1) := hg _ _ h1 (by omega) h2
  -- the frequency is one of the two bracketing grid frequencies
  have hpk : ((k : Int) = pos ∧ w = 1) ∨ ((k : Int) = pos + 1 ∧ w = 0) := by
    have hge : pos ≤ k := by
      by_contra hlt
      exact absurd (hg k pos (by omega) (by omega) (by omega)) (not_lt.2 hb1)
    have hle : (k : Int) ≤ pos + 1 := by
      by_contra hlt
      exact absurd (hg (pos + 1) k (by omega) (by omega) (by omega)) (not_lt.2 hb2)
    have hcase : (k : Int) = pos ∨ (k : Int) = pos + 1 := by omega
    rcases hcase with h | h
    · left
      refine ⟨h, ?_⟩
      rw [h] at hb3
      have : (w - 1) * (grid pos - grid (pos + 1)) = 0 := by linear_combination hb3
      rcases mul_eq_zero.1 this with h' | h'
      · linarith
      · linarith
    · right
      refine ⟨h, ?_⟩
      rw [h] at hb3
      have : w * (grid pos - grid (pos + 1)) = 0 := by linear_combination hb3
      rcases mul_eq_zero.1 this with h' | h'
      · exact h'
      · linarith
  have hread := C42_reads_inside lw mh nud hlw hmh hnud ext grid hg hpos
    (ext.1.1 + i * ((ext.1.2 - ext.1.1) / (lw - 1 : ℝ))) (ext.2.1 + j * ((ext.2.2 - ext.2.1) / (mh - 1 : ℝ)))
    0 0 0 1 1 (grid k)
  refine beamValue_const ?_ hread.2.2
  intro e hmem
  unfold beamRead at hmem
  simp only [he, hs, beamCoords, Real.cos_zero, Real.sin_zero, mul_one, mul_zero, add_zero, sub_zero, zero_add]
    at hmem
  rw [axisPos_grid hlw hl i hi, axisPos_grid hmh hm j hj] at hmem
  simp only [beamCells, List.mem_cons, List.not_mem_nil, or_false, sub_zero, mul_one, one_mul, zero_mul] at hmem
  rcases hpk with ⟨hp, hw⟩ | ⟨hp, hw⟩ <;>
    rcases hmem with rfl | rfl | rfl | rfl | rfl | rfl | rfl | rfl <;> simp [hp, hw]

/-- **C42** The modulus of the result is the weighted mean of the moduli, unless the weighted mean of the values
vanishes (then the result is zero). -/
theorem C42_modulus (lw mh nud : Nat) (hlw : 2 ≤ lw) (hmh : 2 ≤ mh) (hnud : 2 ≤ nud)
    (beam : Int → Int → Int → ℂ) (ext : (ℝ × ℝ) × (ℝ × ℝ)) (grid : Int → ℝ) (hg : Increasing grid nud)
    (hpos : grid ((nud : Int) - 1) ≠ 0) (l m pa pe0 pe1 as0 as1 freq : ℝ) :
    ∃ z, beamCubeDde lw mh nud beam ext grid l m pa pe0 pe1 as0 as1 freq = .ok z ∧
      ((((beamRead lw mh nud ext grid l m pa pe0 pe1 as0 as1 freq).map
          fun e => (e.2 : ℂ) * beam e.1.1 e.1.2.1 e.1.2.2).sum = 0 ∧ z = 0) ∨
       ‖z‖ = ((beamRead lw mh nud ext grid l m pa pe0 pe1 as0 as1 freq).map
          fun e => e.2 * ‖beam e.1.1 e.1.2.1 e.1.2.2‖).sum) := by
  have hread := C42_reads_inside lw mh nud hlw hmh hnud ext grid hg hpos l m pa pe0 pe1 as0 as1 freq
  unfold beamCubeDde
  rw [if_neg (by omega)]
  refine ⟨_, rfl, ?_⟩
  generalize beamRead lw mh nud ext grid l m pa pe0 pe1 as0 as1 freq = cells at hread
  have hnn : 0 ≤ (cells.map fun e => e.2 * ‖beam e.1.1 e.1.2.1 e.1.2.2‖).sum := by
    refine List.sum_nonneg ?_
    intro x hx
    obtain ⟨e, he, rfl⟩ := List.mem_map.1 hx
    exact mul_nonneg (hread.2.1 e he).2.2.2 (norm_nonneg _)
  unfold beamValue
  simp only
  rw [foldl_acc]
  simp only [zero_add]
  split_ifs with h
  · left
    rw [norm_eq_zero] at h
    exact ⟨h, by rw [h, zero_mul]⟩
  · right
    rw [norm_mul, Complex.norm_real, Real.norm_of_nonneg (div_nonneg hnn (norm_nonneg _))]
    field_simp

/-- A 3 x 4 x 2 cube over [-1, 1] x [-2, 2] with frequencies 1 and 2. -/
example (beam : Int → Int → Int → ℂ) :
    beamCubeDde 3 4 2 beam ((-1, 1), (-2, 2)) (fun i => (i : ℝ) + 1)
      (-1 + (2 : Nat) * ((1 - -1) / (((3 : Nat) : ℝ) - 1))) (-2 + (3 : Nat) * ((2 - -2) / (((4 : Nat) : ℝ) - 1)))
      0 0 0 1 1 (((1 : Nat) : Int) + 1) = .ok (beam (2 : Nat) (3 : Nat) (1 : Nat)) :=
  C42_grid_point 3 4 2 (by omega) (by omega) (by omega) beam ((-1, 1), (-2, 2)) (by norm_num) (by norm_num)
    (fun i => (i : ℝ) + 1)
    (fun i j _ h _ => by have : (i : ℝ) < j := by exact_mod_cast h
                         simpa using this)
    (by norm_num) 2 3 1 (by omega) (by omega) (by omega)

end Verif.Rime
