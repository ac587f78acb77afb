/-
C152: frequencies of integer type.
-/
import Verif.Types.Store
import Verif.ModelData.SpectralProps
import Verif.Rime.PropsBeam
import Verif.Averaging.Props3
import Mathlib.Analysis.Complex.ExponentialBounds
import Mathlib.Analysis.Real.Pi.Bounds
import Mathlib.Algebra.Order.Floor.Semifield

set_option autoImplicit false

namespace Verif.Types

open Finset

/-! ### Lemmas -/

theorem toInteger_nat (n : Nat) : toInteger n = n := by
  unfold toInteger
  rw [if_pos (Nat.cast_nonneg n)]
  simp

theorem toInteger_zero : toInteger 0 = 0 := by exact_mod_cast toInteger_nat 0
theorem toInteger_one : toInteger 1 = 1 := by exact_mod_cast toInteger_nat 1

theorem toInteger_fraction {x : ℝ} (h0 : 0 ≤ x) (h1 : x < 1) : toInteger x = 0 := by
  unfold toInteger
  rw [if_pos h0, Int.floor_eq_zero_iff.2 ⟨h0, h1⟩]
  simp

theorem gaussScale_pos : 0 < Rime.gaussScale := by
  have hl : (0 : ℝ) < Real.log 2 := Real.log_pos (by norm_num)
  unfold Rime.gaussScale Rime.lightspeed
  positivity

theorem gaussScale_lt : Rime.gaussScale < 2 / 299792458 := by
  have hl : (0.6931471803 : ℝ) < Real.log 2 := Real.log_two_gt_d9
  have hp := Real.pi_lt_d2
  have hp0 := Real.pi_pos
  have hsq := Rime.gaussScale_sq
  have h1 : Rime.gaussScale ^ 2 < (2 / 299792458) ^ 2 := by
    rw [hsq, div_pow]
    apply div_lt_div_of_pos_right _ (by norm_num)
    rw [div_lt_iff₀ (by linarith)]
    nlinarith
  exact lt_of_pow_lt_pow_left₀ 2 (by norm_num) h1

theorem gaussianInto_eq (store : ℝ → ℝ) (u v w freq freq' emaj emin angle : ℝ)
    (h : store (freq * Rime.gaussScale) = freq' * Rime.gaussScale) :
    gaussianShapeInto store u v w freq emaj emin angle = ModelData.gaussianShape u v w freq' emaj emin angle := by
  unfold gaussianShapeInto ModelData.gaussianShape
  rw [h]

theorem freqDataInto_eq (store : ℝ → ℝ) (grid : Int → ℝ) (nud : Nat) (freq : ℝ) :
    freqDataInto store grid nud freq =
      (store (Rime.freqData grid nud freq).1, store (Rime.freqData grid nud freq).2.1, (Rime.freqData grid nud freq).2.2) := by
  unfold freqDataInto Rime.freqData
  simp only
  split
  · rfl
  · split <;> rfl

/-- Only the cells with a weight count. -/
theorem beamValue_of_sums {cells cells' : List ((Int × Int × Int) × ℝ)} {beam : Int → Int → Int → ℂ}
    (h1 : (cells.map fun e => e.2 * ‖beam e.1.1 e.1.2.1 e.1.2.2‖).sum = (cells'.map fun e => e.2 * ‖beam e.1.1 e.1.2.1 e.1.2.2‖).sum)
    (h2 : (cells.map fun e => (e.2 : ℂ) * beam e.1.1 e.1.2.1 e.1.2.2).sum =
      (cells'.map fun e => (e.2 : ℂ) * beam e.1.1 e.1.2.1 e.1.2.2).sum) :
    Rime.beamValue cells beam = Rime.beamValue cells' beam := by
  unfold Rime.beamValue
  simp only
  rw [Rime.foldl_acc, Rime.foldl_acc, h1, h2]

/-- All the weight on the first frequency of a pair, or on the second of the pair before it. -/
theorem beamValue_shift (pl pm : Int × Int × ℝ) (k : Int) (beam : Int → Int → Int → ℂ) :
    Rime.beamValue (Rime.beamCells pl pm 1 (k + 1)) beam = Rime.beamValue (Rime.beamCells pl pm 0 k) beam := by
  apply beamValue_of_sums <;>
  simp [Rime.beamCells]

theorem mono {grid : Int → ℝ} {nud : Nat} (hg : Rime.Increasing grid nud) (a b : Int) (ha : 0 ≤ a) (hab : a ≤ b) (hb : b < nud) :
    grid a ≤ grid b := by
  rcases lt_or_eq_of_le hab with h | rfl
  · exact (hg a b ha h hb).le
  · exact le_rfl

/-- At a frequency of the grid the weight is 0 or 1. -/
theorem freqData_grid (grid : Int → ℝ) (nud : Nat) (hn : 2 ≤ nud) (hg : Rime.Increasing grid nud)
    (hpos : grid ((nud : Int) - 1) ≠ 0) (k : Nat) (hk : k < nud) :
    Rime.freqData grid nud (grid k) = (1, 1, (k : Int)) ∨ Rime.freqData grid nud (grid k) = (1, 0, (k : Int) - 1) := by
  obtain ⟨scale, w, pos, he, h1, h2, h3, h4, hin, -, -⟩ := Rime.C41_freq_grid grid nud hn hg (grid k) hpos
  obtain ⟨hs, hb1, hb2, hb3⟩ := hin (mono hg 0 k (by omega) (by omega) (by omega)) (mono hg k _ (by omega) (by omega) (by omega))
  have hstep : grid pos < grid (pos + 1) := hg _ _ h1 (by omega) h2
  have hge : pos ≤ k := by
    by_contra hlt
    exact absurd (hg k pos (by omega) (by omega) (by omega)) (not_lt.2 hb1)
  have hle : (k : Int) ≤ pos + 1 := by
    by_contra hlt
    exact absurd (hg (pos + 1) k (by omega) (by omega) (by omega)) (not_lt.2 hb2)
  have hcase : (k : Int) = pos ∨ (k : Int) = pos + 1 := by omega
  rw [he, hs]
  rcases hcase with h | h
  · left
    rw [h] at hb3
    have : (w - 1) * (grid pos - grid (pos + 1)) = 0 := by linear_combination hb3
    rcases mul_eq_zero.1 this with h' | h'
    · rw [show w = 1 by linarith, h]
    · linarith
  · right
    rw [h] at hb3
    have : w * (grid pos - grid (pos + 1)) = 0 := by linear_combination hb3
    rcases mul_eq_zero.1 this with h' | h'
    · rw [h', h, show pos + 1 - 1 = pos by omega]
    · linarith

/-! ### C152: Gaussian sources -/

/-- **C152.** The shapes are the documented ones whenever the scaled frequencies can be stored; missing: integer types, for
which they cannot. -/
theorem C152_gaussian_partial (store : ℝ → ℝ) (u v w freq emaj emin angle : ℝ)
    (h : store (freq * Rime.gaussScale) = freq * Rime.gaussScale) :
    gaussianShapeInto store u v w freq emaj emin angle = ModelData.gaussianShape u v w freq emaj emin angle :=
  gaussianInto_eq store u v w freq freq emaj emin angle h

/-- **C152.** For frequencies of integer type the shape is that of a lower frequency: the highest one, not above it, whose scaled
value is an integer. -/
theorem C152_gaussian_integer (u v w freq emaj emin angle : ℝ) (hf : 0 ≤ freq) :
    gaussianShapeInto toInteger u v w freq emaj emin angle =
      ModelData.gaussianShape u v w (⌊freq * Rime.gaussScale⌋ / Rime.gaussScale) emaj emin angle := by
  apply gaussianInto_eq
  unfold toInteger
  rw [if_pos (mul_nonneg hf gaussScale_pos.le), div_mul_cancel₀ _ gaussScale_pos.ne']

/-- **C152, disagreement.** Below 149896230 Hz, with frequencies of integer type, every Gaussian source has the shape of a point
source, at all baselines and for all extents; the shape of that source is smaller for all but special baselines. -/
theorem C152_gaussian_violated (freq : Nat) (h0 : 0 < freq) (hf : freq < 149896230) (u v w emaj emin angle : ℝ) :
    gaussianShapeInto toInteger u v w freq emaj emin angle = 1 ∧
    (emaj ≠ 0 → u * Real.sin angle + v * Real.cos angle ≠ 0 → ModelData.gaussianShape u v w freq emaj emin angle < 1) := by
  constructor
  · have hlt : (freq : ℝ) * Rime.gaussScale < 1 := by
      have h1 := gaussScale_lt
      have h2 : (freq : ℝ) ≤ 149896229 := by exact_mod_cast (by omega : freq ≤ 149896229)
      have h3 := gaussScale_pos
      calc (freq : ℝ) * Rime.gaussScale ≤ 149896229 * Rime.gaussScale := by gcongr
        _ < 149896229 * (2 / 299792458) := by gcongr
        _ = 1 := by norm_num
    have hz : toInteger ((freq : ℝ) * Rime.gaussScale) = 0 := toInteger_fraction (by have := gaussScale_pos; positivity) hlt
    unfold gaussianShapeInto
    simp only
    rw [hz]
    simp
  · intro he hb
    exact ModelData.C50_attenuates u v w freq emaj emin angle (by exact_mod_cast h0.ne') he hb

/-! ### C152: beams -/

/-- **C152.** Beams at frequencies of the grid are the same for frequencies of integer type; missing: other frequencies. -/
theorem C152_beam_partial (lw mh nud : Nat) (hnud : 2 ≤ nud) (beam : Int → Int → Int → ℂ) (ext : (ℝ × ℝ) × (ℝ × ℝ))
    (grid : Int → ℝ) (hg : Rime.Increasing grid nud) (hpos : grid ((nud : Int) - 1) ≠ 0) (l m pa pe0 pe1 as0 as1 : ℝ) (k : Nat)
    (hk : k < nud) :
    beamCubeDdeInto toInteger lw mh nud beam ext grid l m pa pe0 pe1 as0 as1 (grid k) =
      Rime.beamCubeDde lw mh nud beam ext grid l m pa pe0 pe1 as0 as1 (grid k) := by
  unfold beamCubeDdeInto Rime.beamCubeDde beamReadInto Rime.beamRead
  rw [freqDataInto_eq]
  rcases freqData_grid grid nud hnud hg hpos k hk with h | h <;> rw [h] <;> simp only [toInteger_one, toInteger_zero]

/-- **C152.** Between two frequencies of the grid, with frequencies of integer type, the beam is that of the upper one. -/
theorem C152_beam_between (lw mh nud : Nat) (hnud : 2 ≤ nud) (beam : Int → Int → Int → ℂ) (ext : (ℝ × ℝ) × (ℝ × ℝ))
    (grid : Int → ℝ) (hg : Rime.Increasing grid nud) (hpos : grid ((nud : Int) - 1) ≠ 0) (l m pa pe0 pe1 as0 as1 freq : ℝ)
    (k : Nat) (hk : k + 1 < nud) (h0 : grid k < freq) (h1 : freq < grid ((k : Int) + 1)) :
    beamCubeDdeInto toInteger lw mh nud beam ext grid l m pa pe0 pe1 as0 as1 freq =
      Rime.beamCubeDde lw mh nud beam ext grid l m pa pe0 pe1 as0 as1 (grid ((k : Int) + 1)) := by
  obtain ⟨scale, w, pos, he, p1, p2, p3, p4, hin, -, -⟩ := Rime.C41_freq_grid grid nud hnud hg freq hpos
  obtain ⟨hs, hb1, hb2, hb3⟩ := hin ((mono hg 0 k (by omega) (by omega) (by omega)).trans h0.le)
    (h1.le.trans (mono hg _ _ (by omega) (by omega) (by omega)))
  have hpk : pos = k := by
    have a1 : pos ≤ k := by
      by_contra hlt
      exact absurd (h1.trans_le (mono hg ((k : Int) + 1) pos (by omega) (by omega) (by omega))) (not_lt.2 hb1)
    have a2 : (k : Int) ≤ pos := by
      by_contra hlt
      exact absurd ((mono hg (pos + 1) k (by omega) (by omega) (by omega)).trans_lt h0) (not_lt.2 hb2)
    omega
  subst hpk
  have hw : w < 1 := by
    by_contra hge
    have hw1 : w = 1 := le_antisymm p4 (not_lt.1 hge)
    rw [hw1] at hb3
    linarith
  have e1 : freqDataInto toInteger grid nud freq = (1, 0, (k : Int)) := by
    rw [freqDataInto_eq, he, hs]
    simp only [toInteger_one, toInteger_fraction p3 hw]
  unfold beamCubeDdeInto Rime.beamCubeDde beamReadInto Rime.beamRead
  rw [e1]
  have hg' := freqData_grid grid nud hnud hg hpos (k + 1) hk
  rw [show (((k + 1 : Nat) : Int)) = (k : Int) + 1 by push_cast; rfl] at hg'
  rcases hg' with h | h
  · rw [h]
    simp only
    rw [beamValue_shift]
  · rw [h, show (k : Int) + 1 - 1 = k by omega]

/-- **C152.** Below the grid, with frequencies of integer type, every source has the beam of the centre. -/
theorem C152_beam_below (lw mh nud : Nat) (hnud : 2 ≤ nud) (beam : Int → Int → Int → ℂ) (ext : (ℝ × ℝ) × (ℝ × ℝ))
    (grid : Int → ℝ) (hg : Rime.Increasing grid nud) (hpos : grid ((nud : Int) - 1) ≠ 0) (l m pa pe0 pe1 as0 as1 freq : ℝ)
    (h0 : 0 ≤ freq) (h1 : freq < grid 0) :
    beamCubeDdeInto toInteger lw mh nud beam ext grid l m pa pe0 pe1 as0 as1 freq =
      Rime.beamCubeDde lw mh nud beam ext grid 0 0 pa pe0 pe1 as0 as1 (grid 0) := by
  obtain ⟨scale, w, pos, he, -, -, -, -, -, hlo, -⟩ := Rime.C41_freq_grid grid nud hnud hg freq hpos
  obtain ⟨hs, hp, hw⟩ := hlo h1
  have hg0 : 0 < grid 0 := h0.trans_lt h1
  have e1 : freqDataInto toInteger grid nud freq = (0, 1, 0) := by
    rw [freqDataInto_eq, he, hs, hp, hw]
    simp only [toInteger_one, toInteger_fraction (div_nonneg h0 hg0.le) ((div_lt_one hg0).2 h1)]
  unfold beamCubeDdeInto Rime.beamCubeDde beamReadInto Rime.beamRead
  rw [e1]
  have hg' := freqData_grid grid nud hnud hg hpos 0 (by omega)
  rw [show (((0 : Nat) : Int)) = 0 by rfl] at hg'
  rcases hg' with h | h
  · rw [h]
    simp only [Rime.beamCoords, mul_zero, zero_mul]
  · exfalso
    obtain ⟨_, _, _, he', q1, _⟩ := Rime.C41_freq_grid grid nud hnud hg (grid 0) hpos
    rw [h] at he'
    have := congrArg (fun x => x.2.2) he'
    dsimp only at this
    omega

/-- **C152, disagreement.** Half way between two frequencies of the grid, with a beam that is 0 at the lower and 1 at the upper,
the value is 1/2, but 1 when the frequencies have integer type. -/
theorem C152_beam_violated : ∃ (beam : Int → Int → Int → ℂ) (grid : Int → ℝ) (ext : (ℝ × ℝ) × (ℝ × ℝ)) (z : ℂ),
    Rime.Increasing grid 2 ∧ grid 0 = 1 ∧ grid 1 = 3 ∧
    beamCubeDdeInto toInteger 2 2 2 beam ext grid 0 0 0 0 0 1 1 (2 : Nat) = .ok 1 ∧
    Rime.beamCubeDde 2 2 2 beam ext grid 0 0 0 0 0 1 1 (2 : Nat) = .ok z ∧ ‖z‖ ≠ 1 := by
  have hg : Rime.Increasing (fun i => 1 + 2 * (i : ℝ)) 2 := by
    intro i j h1 h2 h3
    have : (i : ℝ) < j := by exact_mod_cast h2
    dsimp only
    linarith
  have hpos : (fun i : Int => 1 + 2 * (i : ℝ)) (((2 : Nat) : Int) - 1) ≠ 0 := by norm_num
  obtain ⟨z, hz, hmod⟩ := Rime.C42_modulus 2 2 2 le_rfl le_rfl le_rfl (fun _ _ k => ((k : ℝ) : ℂ)) ((0, 1), (0, 1))
    (fun i => 1 + 2 * (i : ℝ)) hg hpos 0 0 0 0 0 1 1 ((2 : Nat) : ℝ)
  refine ⟨fun _ _ k => ((k : ℝ) : ℂ), fun i => 1 + 2 * (i : ℝ), ((0, 1), (0, 1)), z, hg, by norm_num, by norm_num, ?_, hz, ?_⟩
  · rw [C152_beam_between 2 2 2 le_rfl _ _ _ hg hpos 0 0 0 0 0 1 1 ((2 : Nat) : ℝ) 0 (by omega) (by norm_num) (by norm_num)]
    have := Rime.C42_grid_point 2 2 2 le_rfl le_rfl le_rfl (fun _ _ k => ((k : ℝ) : ℂ)) ((0, 1), (0, 1)) (by norm_num) (by norm_num)
      (fun i => 1 + 2 * (i : ℝ)) hg hpos 0 0 1 (by omega) (by omega) (by omega)
    simpa using this
  · obtain ⟨scale, w, pos, he, p1, p2, p3, p4, hin, -, -⟩ := Rime.C41_freq_grid (fun i => 1 + 2 * (i : ℝ)) 2 le_rfl hg ((2 : Nat) : ℝ) hpos
    obtain ⟨hs, -, -, hb3⟩ := hin (by norm_num) (by norm_num)
    have hp : pos = 0 := by omega
    subst hp
    have hw : w = 1 / 2 := by
      push_cast at hb3
      linarith
    rcases hmod with ⟨-, h⟩ | h
    · rw [h]; simp
    · rw [h]
      unfold Rime.beamRead
      rw [he]
      simp only [Rime.beamCells, List.map_cons, List.map_nil, List.sum_cons, List.sum_nil]
      rw [hw]
      norm_num
      generalize (Rime.axisPos 2 0 1 _).2.2 = a
      generalize (Rime.axisPos 2 0 1 _).2.2 = b
      intro hc
      nlinarith

/-! ### C152: averaged channels -/

/-- **C152.** The average of the frequencies of a bin, when it can be stored; missing: averages that are no integers, for
frequencies of integer type. -/
theorem C152_channels_partial (store : ℝ → ℝ) (nchan bin : Nat) (hb : 1 ≤ bin) (freq : Nat → ℝ) (o : Nat)
    (ho : o < (nchan + bin - 1) / bin) (B : Finset Nat) (hB : B = (range nchan).filter fun f => f / bin = o)
    (hst : store ((∑ f ∈ B, freq f) / B.card) = (∑ f ∈ B, freq f) / B.card) :
    chanFreqInto store nchan (Averaging.channelMapper nchan bin).1 freq o = (∑ f ∈ B, freq f) / B.card := by
  obtain ⟨af, aw, ab, ar, h, _, h1, _⟩ := Averaging.C17_chan_average nchan bin hb freq freq freq freq o ho B hB
  have : chanFreqInto store nchan (Averaging.channelMapper nchan bin).1 freq o = store (af o) := by
    unfold Averaging.chanAverage at h
    simp only [Option.map_some, Averaging.ChanAverageOutput.mk.injEq, Option.some.injEq] at h
    rw [← h.1]
    rfl
  rw [this, h1, hst]

/-- **C152.** With integer types the average is rounded down (for frequencies that are not negative). -/
theorem C152_channels_integer (nchan bin : Nat) (hb : 1 ≤ bin) (freq : Nat → Nat) (o : Nat)
    (ho : o < (nchan + bin - 1) / bin) (B : Finset Nat) (hB : B = (range nchan).filter fun f => f / bin = o) :
    chanFreqInto toInteger nchan (Averaging.channelMapper nchan bin).1 (fun f => freq f) o = ((∑ f ∈ B, freq f) / B.card : Nat) := by
  obtain ⟨af, aw, ab, ar, h, hc, h1, _⟩ := Averaging.C17_chan_average nchan bin hb (fun f => (freq f : ℝ)) (fun f => (freq f : ℝ))
    (fun f => (freq f : ℝ)) (fun f => (freq f : ℝ)) o ho B hB
  have : chanFreqInto toInteger nchan (Averaging.channelMapper nchan bin).1 (fun f => freq f) o = toInteger (af o) := by
    unfold Averaging.chanAverage at h
    simp only [Option.map_some, Averaging.ChanAverageOutput.mk.injEq, Option.some.injEq] at h
    rw [← h.1]
    rfl
  rw [this, h1]
  have e : (∑ f ∈ B, (freq f : ℝ)) / (B.card : ℝ) = (((∑ f ∈ B, freq f : Nat) : ℝ)) / (B.card : ℝ) := by push_cast; rfl
  rw [e]
  unfold toInteger
  rw [if_pos (by positivity), ← natCast_floor_eq_intCast_floor (by positivity), Nat.floor_div_eq_div]

/-- **C152, disagreement.** The average of the frequencies 1 and 2 is 1 when they have integer type. -/
theorem C152_channels_violated :
    chanFreqInto toInteger 2 (Averaging.channelMapper 2 2).1 (fun f => ((f + 1 : Nat) : ℝ)) 0 = 1 := by
  rw [C152_channels_integer 2 2 (by omega) (fun f => f + 1) 0 (by decide) _ rfl]
  have : (∑ f ∈ (range 2).filter (fun f => f / 2 = 0), (f + 1)) / ((range 2).filter fun f => f / 2 = 0).card = 1 := by decide
  rw [this]
  norm_num

/-- The hypotheses are met: a grid of two frequencies, one between them and one below. -/
example : Rime.Increasing (fun i => 1 + 2 * (i : ℝ)) 2 ∧ (fun i : Int => 1 + 2 * (i : ℝ)) 0 < 2 := by
  refine ⟨fun i j h1 h2 h3 => ?_, by norm_num⟩
  have : (i : ℝ) < j := by exact_mod_cast h2
  dsimp only
  linarith

end Verif.Types
