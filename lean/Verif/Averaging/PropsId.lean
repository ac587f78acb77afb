/-
C135: averaging over intervals too short for two samples returns the samples themselves.
-/
import Verif.Averaging.PropsSym

set_option autoImplicit false

namespace Verif.Averaging

open Function

section
variable {n : Nat} {time interval : Nat → ℚ} {ant1 ant2 : Nat → Int} {flagRow : Option (Nat → Nat)}
  {secs sentinel : ℚ} {out : RowMapOutput}

/-- C135. When no two samples of a baseline fit into `secs` seconds (and the samples of a baseline start in the order of
their times), each row is an output row of its own, with its own time, interval and flag: the rows are only put in order
of time. -/
theorem C135_rows
    (h32 : ∀ r < n, IsInt32 (ant1 r)) (hsent : ∀ r < n, time r < sentinel)
    (hmono : ∀ r < n, ∀ q < n, ant1 r = ant1 q → ant2 r = ant2 q → time r < time q →
      lowEdge time interval r ≤ lowEdge time interval q)
    (hfit : ∀ r < n, ∀ q < n, ant1 r = ant1 q → ant2 r = ant2 q → time r < time q →
      secs < highEdge time interval q - lowEdge time interval r)
    (h : rowMapper sentinel n time interval ant1 ant2 flagRow secs = .ok out) :
    out.outRows = n ∧ Set.BijOn out.map (Set.Iio n) (Set.Iio n) ∧
    ∀ r < n, out.time (out.map r) = time r ∧ out.interval (out.map r) = interval r ∧
      (∀ f, flagRow = some f → ∃ g, out.flagRow = some g ∧ (g (out.map r) ≠ 0 ↔ f r ≠ 0)) := by
  obtain ⟨hdup, hok⟩ := rowMapOK_of_ok h32 hsent h
  have hinj : ∀ r < n, ∀ q < n, out.map r = out.map q → r = q := by
    intro r hr q hq hm
    obtain ⟨b1, b2⟩ := hok.sameBl r hr q hq hm
    rcases lt_trichotomy (time r) (time q) with hl | he | hl
    · have h1 := C07_bins_fit_partial h32 hsent hmono h r q hr hq hl hm
      have h2 := hfit r hr q hq b1 b2 hl
      linarith
    · exact hdup r hr q hq he b1 b2
    · have h1 := C07_bins_fit_partial h32 hsent hmono h q r hq hr hl hm.symm
      have h2 := hfit q hq r hr b1.symm b2.symm hl
      linarith
  have himg : Finset.range out.outRows = (Finset.range n).image out.map := by
    ext o
    simp only [Finset.mem_range, Finset.mem_image]
    exact ⟨fun ho => hok.onto o ho, fun ⟨r, hr, he⟩ => by rw [← he]; exact hok.inRange r hr⟩
  have hrows : out.outRows = n := by
    have := congrArg Finset.card himg
    rwa [Finset.card_range, Finset.card_image_of_injOn (fun r hr q hq he => hinj r (by simpa using hr) q
      (by simpa using hq) he), Finset.card_range] at this
  have hfib : ∀ r < n, fibre n out.map (out.map r) = {r} := by
    intro r hr
    ext q
    simp only [fibre, Finset.mem_filter, Finset.mem_range, Finset.mem_singleton]
    exact ⟨fun ⟨hq, he⟩ => hinj q hq r hr he, fun he => by subst he; exact ⟨hr, rfl⟩⟩
  refine ⟨hrows, ⟨fun r hr => ?_, fun r hr q hq he => hinj r hr q hq he, fun o ho => ?_⟩, fun r hr => ?_⟩
  · have := hok.inRange r hr
    rw [hrows] at this
    exact this
  · obtain ⟨r, hr, he⟩ := hok.onto o (by rw [hrows]; exact ho)
    exact ⟨r, hr, he⟩
  · have hlt := hok.inRange r hr
    obtain ⟨_, e1, e2⟩ := C03_time_mean_interval_sum h32 hsent h _ hlt
    rw [e1, e2, hfib r hr]
    refine ⟨by simp, by simp, fun f hf => ?_⟩
    obtain ⟨g, hg, hgo⟩ := (C05_flag_conjunction h32 hsent h).2 f hf
    refine ⟨g, hg, ?_⟩
    obtain ⟨h1, h2⟩ := hgo _ hlt
    rw [hfib r hr] at h2
    simp only [Finset.mem_singleton, forall_eq] at h2
    rw [← h2]
    omega

variable {K : Type*} [Field K] [DecidableEq K]

theorem contributors_self (hbij : Set.BijOn out.map (Set.Iio n) (Set.Iio n)) {r : Nat} (hr : r < n) :
    contributors n out.map flagRow (out.map r) = {r} := by
  have hfib : fibre n out.map (out.map r) = {r} := by
    ext q
    simp only [fibre, Finset.mem_filter, Finset.mem_range, Finset.mem_singleton]
    exact ⟨fun ⟨hq, he⟩ => hbij.injOn hq hr he, fun he => by subst he; exact ⟨hr, rfl⟩⟩
  unfold contributors
  rw [hfib]
  split
  · rfl
  · rename_i hc
    simp only [Finset.mem_singleton, forall_eq] at hc
    rw [Finset.filter_singleton, if_pos hc]

/-- C135, columns of rows: uvw, time centroid, exposure, weight and antennas are those of the row. -/
theorem C135_columns [CharZero K] (sqrt : K → K) (junk : Nat → Int) (cols : RowCols K) (ncorr : Nat)
    (h32 : ∀ r < n, IsInt32 (ant1 r)) (hsent : ∀ r < n, time r < sentinel)
    (hmono : ∀ r < n, ∀ q < n, ant1 r = ant1 q → ant2 r = ant2 q → time r < time q →
      lowEdge time interval r ≤ lowEdge time interval q)
    (hfit : ∀ r < n, ∀ q < n, ant1 r = ant1 q → ant2 r = ant2 q → time r < time q →
      secs < highEdge time interval q - lowEdge time interval r)
    (h01 : ZeroOne n flagRow)
    (h : rowMapper sentinel n time interval ant1 ant2 flagRow secs = .ok out) (avg : RowAverageOutput K)
    (havg : avg = rowAverage sqrt junk n out flagRow ant1 ant2 cols ncorr) (r : Nat) (hr : r < n) :
    avg.ant1 (out.map r) = ant1 r ∧ avg.ant2 (out.map r) = ant2 r ∧
    avg.timeCentroid.map (· (out.map r)) = cols.timeCentroid.map (· r) ∧
    avg.exposure.map (· (out.map r)) = cols.exposure.map (· r) ∧
    (∀ k < 3, avg.uvw.map (· (out.map r) k) = cols.uvw.map (· r k)) ∧
    (∀ k < ncorr, avg.weight.map (· (out.map r) k) = cols.weight.map (· r k)) := by
  obtain ⟨hrows, hbij, _⟩ := C135_rows h32 hsent hmono hfit h
  have hlt : out.map r < out.outRows := (rowMapOK_of_ok h32 hsent h).2.inRange r hr
  obtain ⟨_, p1, p2, p3, p4, p5⟩ := C11_row_average sqrt junk cols ncorr h32 hsent h01 h avg havg _ hlt _ rfl
  rw [contributors_self hbij hr] at p1 p2 p3 p4
  simp only [Finset.sum_singleton, Finset.card_singleton, Nat.cast_one, div_one] at p1 p2 p3 p4
  refine ⟨(p5 r hr rfl).1, (p5 r hr rfl).2, ?_, ?_, ?_, ?_⟩
  · cases hx : cols.timeCentroid with
    | none => rw [havg]; simp [rowAverage, hx]
    | some t =>
      obtain ⟨z, hz, ez⟩ := p2 t hx
      rw [hz, Option.map_some, ez]; rfl
  · cases hx : cols.exposure with
    | none => rw [havg]; simp [rowAverage, hx]
    | some t =>
      obtain ⟨z, hz, ez⟩ := p3 t hx
      rw [hz, Option.map_some, ez]; rfl
  · intro k hk
    cases hx : cols.uvw with
    | none => rw [havg]; simp [rowAverage, hx]
    | some t =>
      obtain ⟨z, hz, ez⟩ := p1 t hx
      rw [hz, Option.map_some, ez k hk]; rfl
  · intro k hk
    cases hx : cols.weight with
    | none => rw [havg]; simp [rowAverage, hx]
    | some t =>
      obtain ⟨z, hz, ez⟩ := p4 t hx
      rw [hz, Option.map_some, ez k hk]; rfl

/-- C135, samples: with bins of one channel, visibilities of non-zero weight, their weights and flags are those of the
row. -/
theorem C135_samples (sqrt : K → K) (nchan ncorr : Nat) (cols : CubeCols K)
    (h32 : ∀ r < n, IsInt32 (ant1 r)) (hsent : ∀ r < n, time r < sentinel)
    (hmono : ∀ r < n, ∀ q < n, ant1 r = ant1 q → ant2 r = ant2 q → time r < time q →
      lowEdge time interval r ≤ lowEdge time interval q)
    (hfit : ∀ r < n, ∀ q < n, ant1 r = ant1 q → ant2 r = ant2 q → time r < time q →
      secs < highEdge time interval q - lowEdge time interval r)
    (h01 : ZeroOne n flagRow)
    (h : rowMapper sentinel n time interval ant1 ant2 flagRow secs = .ok out)
    (r f c : Nat) (hr : r < n) (hf : f < nchan) (hc : c < ncorr) :
    (channelMapper nchan 1).2 = nchan ∧
    ∃ avg, rowChanAverage sqrt n nchan ncorr out flagRow (channelMapper nchan 1).1 (channelMapper nchan 1).2
        cols = .ok avg ∧
      (∀ fl, cols.flag = some fl → ∃ g, avg.flag = some g ∧ (g (out.map r) f c ≠ 0 ↔ fl r f c ≠ 0)) ∧
      (∀ ws, cols.weightSpectrum = some ws → ∃ g, avg.weightSpectrum = some g ∧ g (out.map r) f c = ws r f c) ∧
      (sampleWt cols.weightSpectrum cols.weight r f c ≠ 0 → ∀ v, cols.vis = some v →
        ∃ g, avg.vis = some g ∧ g (out.map r) f c = v r f c) := by
  obtain ⟨hrows, hbij, _⟩ := C135_rows h32 hsent hmono hfit h
  have hlt : out.map r < out.outRows := (rowMapOK_of_ok h32 hsent h).2.inRange r hr
  obtain ⟨hc1, hc2, _⟩ := C01_channel_map nchan 1 le_rfl
  have hnc : (channelMapper nchan 1).2 = nchan := by rw [hc2]; omega
  refine ⟨hnc, ?_⟩
  obtain ⟨avg, e, g⟩ := rowChan_main sqrt nchan ncorr 1 cols h32 hsent h01 le_rfl h
  refine ⟨avg, e, ?_⟩
  have hbin : binSamples n nchan out.map flagRow (channelMapper nchan 1).1 (out.map r) f = {(r, f)} := by
    unfold binSamples
    rw [contributors_self hbij hr]
    have : fibre nchan (channelMapper nchan 1).1 f = {f} := by
      ext q
      simp only [fibre, Finset.mem_filter, Finset.mem_range, Finset.mem_singleton]
      constructor
      · rintro ⟨hq, he⟩
        rw [hc1 q hq, Nat.div_one] at he
        exact he
      · rintro rfl
        exact ⟨hf, by rw [hc1 q hf, Nat.div_one]⟩
    rw [this]
    rfl
  have hused : usedSamples cols.flag {(r, f)} c = {(r, f)} := by
    unfold usedSamples
    split
    · rfl
    · rename_i hn
      simp only [Finset.mem_singleton, forall_eq] at hn
      rw [Finset.filter_singleton, if_pos hn]
  obtain ⟨_, _, p1, p2, p3, _⟩ := g _ hlt f (by omega) c hc _ rfl _ rfl _ rfl
  rw [hbin, hused] at p1 p3
  rw [hbin] at p2
  refine ⟨fun fl hfl => ?_, fun ws hws => ?_, fun hw v hv => ?_⟩
  · obtain ⟨z, hz, z1, z2⟩ := p2 fl hfl
    refine ⟨z, hz, ?_⟩
    simp only [Finset.mem_singleton, forall_eq] at z2
    rw [← z2]
    omega
  · obtain ⟨z, hz, ez⟩ := p3 ws hws
    exact ⟨z, hz, by rw [ez, Finset.sum_singleton]⟩
  · obtain ⟨z, hz, ez, _⟩ := p1 v hv
    refine ⟨z, hz, ?_⟩
    rw [Finset.sum_singleton, Finset.sum_singleton] at ez
    rw [ez hw, mul_div_assoc, div_self hw, mul_one]

end

/-- The hypotheses hold for three samples of two seconds on one baseline and one on another, averaged over three
seconds. -/
example : let time : Nat → ℚ := fun r => [4, 0, 2, 0].getD r 0
    let interval : Nat → ℚ := fun _ => 2
    let ant2 : Nat → Int := fun r => [1, 1, 1, 2].getD r 0
    (∀ r < 4, IsInt32 ((fun _ => 0 : Nat → Int) r)) ∧ (∀ r < 4, time r < 1000) ∧
    (∀ r < 4, ∀ q < 4, ant2 r = ant2 q → time r < time q → lowEdge time interval r ≤ lowEdge time interval q) ∧
    (∀ r < 4, ∀ q < 4, ant2 r = ant2 q → time r < time q →
      3 < highEdge time interval q - lowEdge time interval r) ∧
    ∃ out, rowMapper 1000 4 time interval (fun _ => 0) ant2 none 3 = .ok out := by
  have h32 : ∀ r < 4, IsInt32 ((fun _ => 0 : Nat → Int) r) := by intro r _; unfold IsInt32; constructor <;> norm_num
  have hs : ∀ r < 4, (fun r => [4, 0, 2, 0].getD r 0 : Nat → ℚ) r < 1000 := by decide +kernel
  obtain ⟨out, h, _⟩ := rowMapper_ok (n := 4) (time := fun r => [4, 0, 2, 0].getD r 0) (interval := fun _ => 2)
    (ant1 := fun _ => 0) (ant2 := fun r => [1, 1, 1, 2].getD r 0) (flagRow := none) (secs := 3) h32 hs
    (by unfold NoDup; decide +kernel)
  exact ⟨h32, hs, by unfold lowEdge; decide +kernel, by unfold lowEdge highEdge; decide +kernel, out, h⟩

end Verif.Averaging
