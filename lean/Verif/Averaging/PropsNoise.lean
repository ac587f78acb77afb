/-
**C202**: weights and errors stay consistent when data are averaged.
-/
import Verif.Averaging.Props3
import Mathlib.Algebra.Order.BigOperators.Ring.Finset

set_option autoImplicit false

namespace Verif.Averaging

/-! ### Lemmas -/

section
variable {ι : Type*} {S : Finset ι} {s w : ι → ℝ}

private theorem wt_pos (hs : ∀ i ∈ S, 0 < s i) (hw : ∀ i ∈ S, w i * s i ^ 2 = 1) (i : ι) (hi : i ∈ S) : 0 < w i := by
  have h1 := hw i hi
  have h2 := pow_pos (hs i hi) 2
  by_contra hn
  nlinarith [not_lt.1 hn]

private theorem sum_sq (hw : ∀ i ∈ S, w i * s i ^ 2 = 1) : ∑ i ∈ S, s i ^ 2 * w i ^ 2 = ∑ i ∈ S, w i := by
  refine Finset.sum_congr rfl fun i hi => ?_
  have := hw i hi
  calc s i ^ 2 * w i ^ 2 = (w i * s i ^ 2) * w i := by ring
    _ = w i := by rw [this, one_mul]

private theorem noise (hS : S.Nonempty) (hs : ∀ i ∈ S, 0 < s i) (hw : ∀ i ∈ S, w i * s i ^ 2 = 1) {a : ℝ}
    (ha : ∑ i ∈ S, w i ≠ 0 → a = Real.sqrt ((∑ i ∈ S, s i ^ 2 * w i ^ 2) / (∑ i ∈ S, w i) ^ 2)) :
    0 < a ∧ (∑ i ∈ S, w i) * a ^ 2 = 1 ∧ ∀ i ∈ S, a ≤ s i := by
  have hp := wt_pos hs hw
  have hW : 0 < ∑ i ∈ S, w i := Finset.sum_pos hp hS
  have h1 : (∑ i ∈ S, s i ^ 2 * w i ^ 2) / (∑ i ∈ S, w i) ^ 2 = 1 / ∑ i ∈ S, w i := by
    rw [sum_sq hw]
    field_simp
  rw [h1] at ha
  have ha' := ha hW.ne'
  have h2 : a ^ 2 = 1 / ∑ i ∈ S, w i := by rw [ha', Real.sq_sqrt (by positivity)]
  refine ⟨by rw [ha']; exact Real.sqrt_pos.2 (by positivity), by rw [h2]; field_simp, fun i hi => ?_⟩
  refine le_of_sq_le_sq ?_ (hs i hi).le
  rw [h2, div_le_iff₀ hW]
  have := Finset.single_le_sum (fun j hj => (hp j hj).le) hi
  nlinarith [hw i hi, pow_pos (hs i hi) 2]
where
  le_of_sq_le_sq {x y : ℝ} (h : x ^ 2 ≤ y ^ 2) (hy : 0 ≤ y) : x ≤ y := by
    by_contra hn
    push Not at hn
    nlinarith

private theorem best (hS : S.Nonempty) (hs : ∀ i ∈ S, 0 < s i) (hw : ∀ i ∈ S, w i * s i ^ 2 = 1) {a a' : ℝ} {w' : ι → ℝ}
    (ha : ∑ i ∈ S, w i ≠ 0 → a = Real.sqrt ((∑ i ∈ S, s i ^ 2 * w i ^ 2) / (∑ i ∈ S, w i) ^ 2))
    (hW' : ∑ i ∈ S, w' i ≠ 0)
    (ha' : ∑ i ∈ S, w' i ≠ 0 → a' = Real.sqrt ((∑ i ∈ S, s i ^ 2 * w' i ^ 2) / (∑ i ∈ S, w' i) ^ 2)) : a ≤ a' := by
  have hp := wt_pos hs hw
  have hW : 0 < ∑ i ∈ S, w i := Finset.sum_pos hp hS
  rw [ha hW.ne', ha' hW']
  refine Real.sqrt_le_sqrt ?_
  rw [sum_sq hw, div_le_div_iff₀ (by positivity) (by positivity)]
  have hcs := Finset.sum_mul_sq_le_sq_mul_sq S (fun i => s i * w' i) (fun i => (s i)⁻¹)
  have e1 : ∑ i ∈ S, s i * w' i * (s i)⁻¹ = ∑ i ∈ S, w' i :=
    Finset.sum_congr rfl fun i hi => by have := (hs i hi).ne'; field_simp
  have e2 : ∑ i ∈ S, (s i)⁻¹ ^ 2 = ∑ i ∈ S, w i := Finset.sum_congr rfl fun i hi => by
    have h0 := (hs i hi).ne'
    have := hw i hi
    rw [inv_pow, eq_comm, ← one_div, eq_div_iff (pow_ne_zero 2 h0), this]
  have e3 : ∑ i ∈ S, (s i * w' i) ^ 2 = ∑ i ∈ S, s i ^ 2 * w' i ^ 2 := Finset.sum_congr rfl fun i _ => by ring
  rw [e1, e2, e3] at hcs
  calc (∑ i ∈ S, w i) * (∑ i ∈ S, w' i) ^ 2 ≤ (∑ i ∈ S, w i) * ((∑ i ∈ S, s i ^ 2 * w' i ^ 2) * ∑ i ∈ S, w i) :=
        mul_le_mul_of_nonneg_left hcs hW.le
    _ = (∑ i ∈ S, s i ^ 2 * w' i ^ 2) * (∑ i ∈ S, w i) ^ 2 := by ring

end

private theorem contributors_lt {n : Nat} {m : Nat → Nat} {fr : Option (Nat → Nat)} {o r : Nat}
    (hr : r ∈ contributors n m fr o) : r < n := by
  unfold contributors at hr
  split at hr
  · exact Finset.mem_range.1 (Finset.mem_filter.1 hr).1
  · exact Finset.mem_range.1 (Finset.mem_filter.1 (Finset.mem_filter.1 hr).1).1

/-! ### Properties -/

variable {n : Nat} {time interval : Nat → ℚ} {ant1 ant2 : Nat → Int} {flagRow : Option (Nat → Nat)} {secs sentinel : ℚ}
  {rm : RowMapOutput}

/-- **C202**. If the weight of every row is the inverse square of its sigma, so is the weight of every averaged row. The averaged
sigma is not larger than that of any row that went in, and no other weights would have made it smaller. -/
theorem C202_rows (junk : Nat → Int) (cols : RowCols ℝ) (ncorr : Nat)
    (h32 : ∀ r < n, IsInt32 (ant1 r)) (hsent : ∀ r < n, time r < sentinel) (h01 : ZeroOne n flagRow)
    (h : rowMapper sentinel n time interval ant1 ant2 flagRow secs = .ok rm)
    (sg w : Nat → Nat → ℝ) (hsg : cols.sigma = some sg) (hw : cols.weight = some w) (o c : Nat) (ho : o < rm.outRows) (hc : c < ncorr)
    (hpos : ∀ r < n, 0 < sg r c) (hinv : ∀ r < n, w r c = 1 / sg r c ^ 2) :
    ∃ a u, (rowAverage Real.sqrt junk n rm flagRow ant1 ant2 cols ncorr).sigma = some a ∧
      (rowAverage Real.sqrt junk n rm flagRow ant1 ant2 cols ncorr).weight = some u ∧
      0 < a o c ∧ u o c = 1 / a o c ^ 2 ∧
      (∀ r ∈ contributors n rm.map flagRow o, a o c ≤ sg r c) ∧
      ∀ w' : Nat → Nat → ℝ, ∑ r ∈ contributors n rm.map flagRow o, w' r c ≠ 0 →
        ∃ a', (rowAverage Real.sqrt junk n rm flagRow ant1 ant2 { cols with weight := some w' } ncorr).sigma = some a' ∧
          a o c ≤ a' o c := by
  obtain ⟨hcard, -, -, -, hu, -⟩ := C11_row_average Real.sqrt junk cols ncorr h32 hsent h01 h _ rfl o ho _ rfl
  obtain ⟨u, hu, hu1⟩ := hu w hw
  obtain ⟨a, ha, ha1, -⟩ := C13_sigma Real.sqrt junk cols ncorr h32 hsent h01 h sg hsg o c ho hc _ rfl
  have hs : ∀ r ∈ contributors n rm.map flagRow o, 0 < sg r c := fun r hr => hpos r (contributors_lt hr)
  have hww : ∀ r ∈ contributors n rm.map flagRow o, w r c * sg r c ^ 2 = 1 := fun r hr => by
    rw [hinv r (contributors_lt hr)]
    have := (hs r hr).ne'
    field_simp
  simp only [rowWt, hw] at ha1
  obtain ⟨p1, p2, p3⟩ := noise (Finset.card_pos.1 hcard) hs hww ha1
  refine ⟨a, u, ha, hu, p1, ?_, p3, fun w' hw' => ?_⟩
  · rw [hu1 c hc, eq_div_iff (pow_ne_zero 2 p1.ne'), p2]
  · obtain ⟨a', e, e1, -⟩ := C13_sigma Real.sqrt junk { cols with weight := some w' } ncorr h32 hsent h01 h sg hsg o c ho hc _ rfl
    simp only [rowWt] at e1
    exact ⟨a', e, best (Finset.card_pos.1 hcard) hs hww ha1 hw' e1⟩

/-- **C202**, in part: the same holds for spectra of weights and sigmas. Missing: weights of rows
(`C202_row_weights_violated`). -/
theorem C202_spectra_partial (nchan ncorr bin : Nat) (cols : CubeCols ℝ)
    (h32 : ∀ r < n, IsInt32 (ant1 r)) (hsent : ∀ r < n, time r < sentinel) (h01 : ZeroOne n flagRow) (hb : 1 ≤ bin)
    (h : rowMapper sentinel n time interval ant1 ant2 flagRow secs = .ok rm)
    (sg ws : Nat → Nat → Nat → ℝ) (hsg : cols.sigmaSpectrum = some sg) (hws : cols.weightSpectrum = some ws)
    (o fo co : Nat) (ho : o < rm.outRows) (hfo : fo < (channelMapper nchan bin).2) (hco : co < ncorr)
    (S : Finset (Nat × Nat))
    (hS : S = usedSamples cols.flag (binSamples n nchan rm.map flagRow (channelMapper nchan bin).1 o fo) co)
    (hpos : ∀ r < n, ∀ f < nchan, 0 < sg r f co) (hinv : ∀ r < n, ∀ f < nchan, ws r f co = 1 / sg r f co ^ 2) :
    ∃ out a u, rowChanAverage Real.sqrt n nchan ncorr rm flagRow (channelMapper nchan bin).1 (channelMapper nchan bin).2 cols
        = .ok out ∧ out.sigmaSpectrum = some a ∧ out.weightSpectrum = some u ∧
      0 < a o fo co ∧ u o fo co = 1 / a o fo co ^ 2 ∧ (∀ p ∈ S, a o fo co ≤ sg p.1 p.2 co) ∧
      ∀ ws' : Nat → Nat → Nat → ℝ, ∑ p ∈ S, ws' p.1 p.2 co ≠ 0 →
        ∃ out' a', rowChanAverage Real.sqrt n nchan ncorr rm flagRow (channelMapper nchan bin).1 (channelMapper nchan bin).2
            { cols with weightSpectrum := some ws' } = .ok out' ∧ out'.sigmaSpectrum = some a' ∧ a o fo co ≤ a' o fo co := by
  obtain ⟨out, e, g⟩ := rowChan_main Real.sqrt nchan ncorr bin cols h32 hsent h01 hb h
  obtain ⟨-, hne, -, -, hu, ha⟩ := g o ho fo hfo co hco _ rfl S hS _ rfl
  obtain ⟨u, hu, hu1⟩ := hu ws hws
  obtain ⟨a, ha, ha1, -⟩ := ha sg hsg
  have hlt : ∀ p ∈ S, p.1 < n ∧ p.2 < nchan := by
    intro p hp
    rw [hS] at hp
    have hp' : p ∈ binSamples n nchan rm.map flagRow (channelMapper nchan bin).1 o fo := by
      unfold usedSamples at hp
      split at hp
      · exact hp
      · exact (Finset.mem_filter.1 hp).1
    unfold binSamples at hp'
    rw [Finset.mem_product] at hp'
    exact ⟨contributors_lt hp'.1, Finset.mem_range.1 (Finset.mem_filter.1 hp'.2).1⟩
  have hs : ∀ p ∈ S, 0 < sg p.1 p.2 co := fun p hp => hpos _ (hlt p hp).1 _ (hlt p hp).2
  have hww : ∀ p ∈ S, ws p.1 p.2 co * sg p.1 p.2 co ^ 2 = 1 := fun p hp => by
    rw [hinv _ (hlt p hp).1 _ (hlt p hp).2]
    have := (hs p hp).ne'
    field_simp
  simp only [sampleWt, hws] at ha1
  obtain ⟨p1, p2, p3⟩ := noise hne hs hww ha1
  refine ⟨out, a, u, e, ha, hu, p1, ?_, p3, fun ws' hw' => ?_⟩
  · rw [hu1, eq_div_iff (pow_ne_zero 2 p1.ne'), p2]
  · obtain ⟨out', e', g'⟩ := rowChan_main Real.sqrt nchan ncorr bin { cols with weightSpectrum := some ws' } h32 hsent h01 hb h
    obtain ⟨-, -, -, -, -, ha'⟩ := g' o ho fo hfo co hco _ rfl S hS _ rfl
    obtain ⟨a', ha', ha1', -⟩ := ha' sg hsg
    simp only [sampleWt] at ha1'
    exact ⟨out', a', e', ha', best hne hs hww ha1 hw' ha1'⟩

/-- One row of two channels, to which the theorems apply. -/
private theorem one_row : ∃ rm, rowMapper 1000 1 (fun _ => 0) (fun _ => 1) (fun _ => 0) (fun _ => 1) none 10 = .ok rm ∧
    rm.map 0 < rm.outRows ∧ fibre 1 rm.map (rm.map 0) = {0} ∧ fibre 2 (channelMapper 2 2).1 0 = {0, 1} ∧
    0 < (channelMapper 2 2).2 := by
  have h32 : ∀ r < 1, IsInt32 ((fun _ => 0 : Nat → Int) r) := by unfold IsInt32; decide
  have hs : ∀ r < 1, ((fun _ => 0 : Nat → ℚ) r) < 1000 := by intro r _; norm_num
  obtain ⟨rm, h, hok⟩ := rowMapper_ok (n := 1) (time := fun _ => 0) (interval := fun _ => 1) (ant1 := fun _ => 0)
    (ant2 := fun _ => 1) (flagRow := none) (secs := 10) (sentinel := 1000) h32 hs (by intro r hr q hq _ _ _; omega)
  refine ⟨rm, h, hok.inRange 0 (by omega), ?_, by decide, by decide⟩
  ext p
  simp only [fibre, Finset.mem_filter, Finset.mem_range, Finset.mem_singleton]
  constructor
  · rintro ⟨hp, -⟩; omega
  · rintro rfl; exact ⟨by omega, rfl⟩

/-- The hypotheses can be met. -/
example : ∃ rm, rowMapper 1000 1 (fun _ => 0) (fun _ => 1) (fun _ => 0) (fun _ => 1) none 10 = .ok rm ∧ rm.map 0 < rm.outRows ∧
    (∀ r < 1, ∀ f < 2, (0 : ℝ) < (fun _ f _ => (f : ℝ) + 1 : Nat → Nat → Nat → ℝ) r f 0) ∧ 0 < (channelMapper 2 2).2 ∧
    ZeroOne 1 none := by
  obtain ⟨rm, h, h0, -, -, hc⟩ := one_row
  exact ⟨rm, h, h0, fun _ _ f _ => by positivity, hc, fun f hf => by cases hf⟩

/-- **C202** (disagreement) With weights of rows, which hold for every channel, the weight of an averaged row is not that of its
averaged samples: two channels with sigma and weight one have a sigma of `1 / √2` when averaged, but the weight stays one. -/
theorem C202_row_weights_violated : ∃ rm out a u,
    rowMapper 1000 1 (fun _ => 0) (fun _ => 1) (fun _ => 0) (fun _ => 1) none 10 = .ok rm ∧
    rowChanAverage Real.sqrt 1 2 1 rm none (channelMapper 2 2).1 (channelMapper 2 2).2
      ⟨some fun _ _ => 1, none, none, none, some fun _ _ _ => 1⟩ = .ok out ∧
    out.sigmaSpectrum = some a ∧
    (rowAverage Real.sqrt (fun _ => 0) 1 rm none (fun _ => 0) (fun _ => 1) ⟨none, none, none, some fun _ _ => 1, none⟩ 1).weight
      = some u ∧
    u (rm.map 0) 0 = 1 ∧ a (rm.map 0) 0 0 ^ 2 = 1 / 2 ∧ u (rm.map 0) 0 ≠ 1 / a (rm.map 0) 0 0 ^ 2 := by
  obtain ⟨rm, h, h0, f1, f2, hc⟩ := one_row
  have h32 : ∀ r < 1, IsInt32 ((fun _ => 0 : Nat → Int) r) := by unfold IsInt32; decide
  have hs : ∀ r < 1, ((fun _ => 0 : Nat → ℚ) r) < 1000 := by intro r _; norm_num
  have h01 : ZeroOne 1 none := fun f hf => by cases hf
  obtain ⟨out, e, g⟩ := rowChan_main Real.sqrt 2 1 2 ⟨some fun _ _ => 1, none, none, none, some fun _ _ _ => 1⟩ h32 hs h01
    (by norm_num) h
  obtain ⟨-, -, -, -, -, ha⟩ := g _ h0 0 hc 0 (by norm_num) _ rfl _ rfl _ rfl
  obtain ⟨a, ha, ha1, -⟩ := ha _ rfl
  rw [used_noflags, f1, f2] at ha1
  simp only [sampleWt] at ha1
  have ha2 := ha1 (by simp)
  obtain ⟨-, -, -, -, hu, -⟩ := C11_row_average Real.sqrt (fun _ => 0) ⟨none, none, none, some fun _ _ => 1, none⟩ 1 h32 hs h01 h
    _ rfl _ h0 _ rfl
  obtain ⟨u, hu, hu1⟩ := hu _ rfl
  have hc1 : contributors 1 rm.map none (rm.map 0) = {0} := by
    unfold contributors
    rw [f1]
    simp [rowFlagged]
  have hu2 := hu1 0 (by norm_num)
  rw [hc1, Finset.sum_singleton] at hu2
  have ha3 : a (rm.map 0) 0 0 ^ 2 = 1 / 2 := by
    rw [ha2, Real.sq_sqrt (by positivity)]
    simp
    norm_num
  refine ⟨rm, out, a, u, h, e, ha, hu, hu2, ha3, ?_⟩
  rw [hu2, ha3]
  norm_num

end Verif.Averaging
