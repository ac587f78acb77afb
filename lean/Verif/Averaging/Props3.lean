/-
Properties C14-C20 and C90, C91.
-/
import Verif.Averaging.Props2

set_option autoImplicit false
set_option linter.unusedSectionVars false

namespace Verif.Averaging

open Function

/-! ### C14 - C16 -/

section cube
variable {K : Type*} [Field K] [DecidableEq K]
variable {n : Nat} {time interval : Nat → ℚ} {ant1 ant2 : Nat → Int}
  {flagRow : Option (Nat → Nat)} {secs sentinel : ℚ} {rm : RowMapOutput}

/-- C14. Each averaged visibility is the weighted mean `sum(w v) / sum(w)` over the unflagged samples
of its bin, or over all of them if all are flagged; it is 0 if all these weights are 0. -/
theorem C14_vis_weighted_mean (sqrt : K → K) (nchan ncorr bin : Nat) (cols : CubeCols K)
    (h32 : ∀ r < n, IsInt32 (ant1 r)) (hsent : ∀ r < n, time r < sentinel)
    (h01 : ZeroOne n flagRow) (hb : 1 ≤ bin)
    (h : rowMapper sentinel n time interval ant1 ant2 flagRow secs = .ok rm)
    (v : Nat → Nat → Nat → K) (hv : cols.vis = some v)
    (o fo co : Nat) (ho : o < rm.outRows) (hfo : fo < (channelMapper nchan bin).2) (hco : co < ncorr)
    (S : Finset (Nat × Nat))
    (hS : S = usedSamples cols.flag
      (binSamples n nchan rm.map flagRow (channelMapper nchan bin).1 o fo) co)
    (w : Nat → Nat → K) (hw : w = fun r f => sampleWt cols.weightSpectrum cols.weight r f co) :
    ∃ out a, rowChanAverage sqrt n nchan ncorr rm flagRow (channelMapper nchan bin).1
        (channelMapper nchan bin).2 cols = .ok out ∧ out.vis = some a ∧ S.Nonempty ∧
      (∑ p ∈ S, w p.1 p.2 ≠ 0 →
        a o fo co = (∑ p ∈ S, v p.1 p.2 co * w p.1 p.2) / ∑ p ∈ S, w p.1 p.2) ∧
      ((∀ p ∈ S, w p.1 p.2 = 0) → a o fo co = 0) := by
  obtain ⟨out, h1, h2⟩ := rowChan_main sqrt nchan ncorr bin cols h32 hsent h01 hb h
  obtain ⟨_, hne, hvis, _⟩ := h2 o ho fo hfo co hco _ rfl S hS w hw
  obtain ⟨a, ha, e1, e2⟩ := hvis v hv
  exact ⟨out, a, h1, ha, hne, e1, e2⟩

/-- C13 for the sigma spectrum. -/
theorem C13_sigma_spectrum (sqrt : K → K) (nchan ncorr bin : Nat) (cols : CubeCols K)
    (h32 : ∀ r < n, IsInt32 (ant1 r)) (hsent : ∀ r < n, time r < sentinel)
    (h01 : ZeroOne n flagRow) (hb : 1 ≤ bin)
    (h : rowMapper sentinel n time interval ant1 ant2 flagRow secs = .ok rm)
    (sg : Nat → Nat → Nat → K) (hsg : cols.sigmaSpectrum = some sg)
    (o fo co : Nat) (ho : o < rm.outRows) (hfo : fo < (channelMapper nchan bin).2) (hco : co < ncorr)
    (S : Finset (Nat × Nat))
    (hS : S = usedSamples cols.flag
      (binSamples n nchan rm.map flagRow (channelMapper nchan bin).1 o fo) co)
    (w : Nat → Nat → K) (hw : w = fun r f => sampleWt cols.weightSpectrum cols.weight r f co) :
    ∃ out a, rowChanAverage sqrt n nchan ncorr rm flagRow (channelMapper nchan bin).1
        (channelMapper nchan bin).2 cols = .ok out ∧ out.sigmaSpectrum = some a ∧
      (∑ p ∈ S, w p.1 p.2 ≠ 0 →
        a o fo co = sqrt ((∑ p ∈ S, sg p.1 p.2 co ^ 2 * w p.1 p.2 ^ 2) /
          (∑ p ∈ S, w p.1 p.2) ^ 2)) ∧
      ((∀ p ∈ S, w p.1 p.2 = 0) → a o fo co = 0) := by
  obtain ⟨out, h1, h2⟩ := rowChan_main sqrt nchan ncorr bin cols h32 hsent h01 hb h
  obtain ⟨_, hne, _, _, _, hs⟩ := h2 o ho fo hfo co hco _ rfl S hS w hw
  obtain ⟨a, ha, e1, e2⟩ := hs sg hsg
  exact ⟨out, a, h1, ha, e1, e2⟩

/-- C15. No "Zero-filled bin" (or other) error is raised, and an averaged sample is flagged iff all
samples of its bin are. -/
theorem C15_flag_conjunction (sqrt : K → K) (nchan ncorr bin : Nat) (cols : CubeCols K)
    (h32 : ∀ r < n, IsInt32 (ant1 r)) (hsent : ∀ r < n, time r < sentinel)
    (h01 : ZeroOne n flagRow) (hb : 1 ≤ bin)
    (h : rowMapper sentinel n time interval ant1 ant2 flagRow secs = .ok rm)
    (fl : Nat → Nat → Nat → Nat) (hfl : cols.flag = some fl) :
    ∃ out a, rowChanAverage sqrt n nchan ncorr rm flagRow (channelMapper nchan bin).1
        (channelMapper nchan bin).2 cols = .ok out ∧ (0 < rm.outRows → 0 < nchan → 0 < ncorr →
          out.flag = some a) ∧
      ∀ o < rm.outRows, ∀ fo < (channelMapper nchan bin).2, ∀ co < ncorr,
        (a o fo co = 0 ∨ a o fo co = 1) ∧
        (a o fo co = 1 ↔
          ∀ p ∈ binSamples n nchan rm.map flagRow (channelMapper nchan bin).1 o fo,
            fl p.1 p.2 co ≠ 0) := by
  obtain ⟨out, h1, h2⟩ := rowChan_main sqrt nchan ncorr bin cols h32 hsent h01 hb h
  refine ⟨out, out.flag.getD (fun _ _ _ => 0), h1, ?_, ?_⟩
  · intro hr hn hc
    have hpos : 0 < (channelMapper nchan bin).2 := by
      have := (C01_channel_map nchan bin hb).2.2.1 0 hn
      omega
    obtain ⟨_, _, _, hf, _⟩ := h2 0 hr 0 hpos 0 hc _ rfl _ rfl _ rfl
    obtain ⟨a, ha, _⟩ := hf fl hfl
    rw [ha]; rfl
  · intro o ho fo hfo co hco
    obtain ⟨_, _, _, hf, _⟩ := h2 o ho fo hfo co hco _ rfl _ rfl _ rfl
    obtain ⟨a, ha, e1, e2⟩ := hf fl hfl
    rw [ha]
    exact ⟨e1, e2⟩

/-- C15. The "Zero-filled bin" error is unreachable, with or without flags. -/
theorem C15_no_zero_filled_bin (sqrt : K → K) (nchan ncorr bin : Nat) (cols : CubeCols K)
    (h32 : ∀ r < n, IsInt32 (ant1 r)) (hsent : ∀ r < n, time r < sentinel)
    (h01 : ZeroOne n flagRow) (hb : 1 ≤ bin)
    (h : rowMapper sentinel n time interval ant1 ant2 flagRow secs = .ok rm) :
    ∃ out, rowChanAverage sqrt n nchan ncorr rm flagRow (channelMapper nchan bin).1
        (channelMapper nchan bin).2 cols = .ok out :=
  let ⟨out, h1, _⟩ := rowChan_main sqrt nchan ncorr bin cols h32 hsent h01 hb h
  ⟨out, h1⟩

/-- C16. The averaged weight spectrum of a bin is the sum of the weights of the samples used. -/
theorem C16_weight_spectrum_sum (sqrt : K → K) (nchan ncorr bin : Nat) (cols : CubeCols K)
    (h32 : ∀ r < n, IsInt32 (ant1 r)) (hsent : ∀ r < n, time r < sentinel)
    (h01 : ZeroOne n flagRow) (hb : 1 ≤ bin)
    (h : rowMapper sentinel n time interval ant1 ant2 flagRow secs = .ok rm)
    (ws : Nat → Nat → Nat → K) (hws : cols.weightSpectrum = some ws)
    (o fo co : Nat) (ho : o < rm.outRows) (hfo : fo < (channelMapper nchan bin).2)
    (hco : co < ncorr) :
    ∃ out a, rowChanAverage sqrt n nchan ncorr rm flagRow (channelMapper nchan bin).1
        (channelMapper nchan bin).2 cols = .ok out ∧ out.weightSpectrum = some a ∧
      a o fo co = ∑ p ∈ usedSamples cols.flag
        (binSamples n nchan rm.map flagRow (channelMapper nchan bin).1 o fo) co, ws p.1 p.2 co := by
  obtain ⟨out, h1, h2⟩ := rowChan_main sqrt nchan ncorr bin cols h32 hsent h01 hb h
  obtain ⟨_, _, _, _, hw, _⟩ := h2 o ho fo hfo co hco _ rfl _ rfl _ rfl
  obtain ⟨a, ha, e⟩ := hw ws hws
  exact ⟨out, a, h1, ha, e⟩

/-- Without flags every sample of the bin is used. -/
theorem used_noflags (m cm : Nat → Nat) (nchan o fo co : Nat) :
    usedSamples none (binSamples n nchan m none cm o fo) co =
      fibre n m o ×ˢ fibre nchan cm fo := by
  have hc : contributors n m none o = fibre n m o := by
    unfold contributors
    split
    · rfl
    · simp [rowFlagged]
  unfold usedSamples binSamples
  rw [hc]
  split
  · rfl
  · simp [sampleFlagged]

/-- C16. With no flags the total weight of each correlation is conserved. -/
theorem C16_weight_conserved (sqrt : K → K) (nchan ncorr bin : Nat) (cols : CubeCols K)
    (h32 : ∀ r < n, IsInt32 (ant1 r)) (hsent : ∀ r < n, time r < sentinel) (hb : 1 ≤ bin)
    (h : rowMapper sentinel n time interval ant1 ant2 none secs = .ok rm)
    (hnf : cols.flag = none)
    (ws : Nat → Nat → Nat → K) (hws : cols.weightSpectrum = some ws) (co : Nat) (hco : co < ncorr)
    (out : RowChanAverageOutput K) (a : Nat → Nat → Nat → K)
    (hout : rowChanAverage sqrt n nchan ncorr rm none (channelMapper nchan bin).1
        (channelMapper nchan bin).2 cols = .ok out) (ha : out.weightSpectrum = some a) :
    ∑ o ∈ Finset.range rm.outRows, ∑ fo ∈ Finset.range (channelMapper nchan bin).2, a o fo co =
      ∑ r ∈ Finset.range n, ∑ f ∈ Finset.range nchan, ws r f co := by
  have hok := (rowMapOK_of_ok h32 hsent h).2
  obtain ⟨_, _, hin, _⟩ := C01_channel_map nchan bin hb
  have hcell : ∀ o < rm.outRows, ∀ fo < (channelMapper nchan bin).2,
      a o fo co = ∑ r ∈ fibre n rm.map o, ∑ f ∈ fibre nchan (channelMapper nchan bin).1 fo, ws r f co := by
    intro o ho fo hfo
    obtain ⟨out', a', h1, h2, h3⟩ := C16_weight_spectrum_sum sqrt nchan ncorr bin cols h32 hsent
      (fun f hf => by cases hf) hb h ws hws o fo co ho hfo hco
    rw [hout] at h1
    cases h1
    rw [ha] at h2
    cases h2
    rw [h3, hnf, used_noflags, Finset.sum_product]
  rw [← Finset.sum_fiberwise_of_maps_to (s := Finset.range n) (t := Finset.range rm.outRows)
    (g := rm.map) (fun r hr => Finset.mem_range.2 (hok.inRange r (Finset.mem_range.1 hr)))]
  refine Finset.sum_congr rfl fun o ho => ?_
  rw [Finset.sum_congr rfl fun fo hfo => hcell o (Finset.mem_range.1 ho) fo (Finset.mem_range.1 hfo),
    Finset.sum_comm]
  refine Finset.sum_congr rfl fun r _ => ?_
  exact Finset.sum_fiberwise_of_maps_to (s := Finset.range nchan)
    (t := Finset.range (channelMapper nchan bin).2) (g := (channelMapper nchan bin).1)
    (fun f hf => Finset.mem_range.2 (hin f (Finset.mem_range.1 hf))) _

/-! ### C17 -/

theorem chanAccum (nchan : Nat) (cm : Nat → Nat) {M : Type*} [AddCommMonoid M] (x : Nat → M)
    (o : Nat) :
    (forRange nchan (fun _ => (0 : M)) fun f a => add1 a (cm f) (x f)) o =
      ∑ f ∈ fibre nchan cm o, x f := by
  rw [forRange_obs (fun a : Nat → M => a o) (fun f => if cm f = o then x f else 0), zero_add, fibre,
    Finset.sum_filter]
  intro f a _
  rw [add1_apply]
  simp [eq_comm]

/-- C17. Averaged channel frequency is the mean, width, effective bandwidth and resolution are sums
over the channels `o*bin <= f < (o+1)*bin` of the bin, of which there is at least one. -/
theorem C17_chan_average (nchan bin : Nat) (hb : 1 ≤ bin) (freq width bw res : Nat → K)
    (o : Nat) (ho : o < (nchan + bin - 1) / bin)
    (B : Finset Nat) (hB : B = (Finset.range nchan).filter fun f => f / bin = o) :
    ∃ af aw ab ar, chanAverage nchan (channelMapper nchan bin).1 (some freq) (some width)
        (some bw) (some res) = ⟨some af, some aw, some ab, some ar⟩ ∧
      0 < B.card ∧
      af o = (∑ f ∈ B, freq f) / B.card ∧ aw o = ∑ f ∈ B, width f ∧
      ab o = ∑ f ∈ B, bw f ∧ ar o = ∑ f ∈ B, res f := by
  obtain ⟨h1, h2, _, honto⟩ := C01_channel_map nchan bin hb
  rw [h2] at honto
  have hfib : fibre nchan (channelMapper nchan bin).1 o = B := by
    rw [hB, fibre]
    exact Finset.filter_congr fun f hf => by rw [h1 f (Finset.mem_range.1 hf)]
  refine ⟨_, _, _, _, rfl, ?_, ?_, ?_, ?_, ?_⟩
  · obtain ⟨f, hf, hm⟩ := honto o ho
    rw [← hfib]
    exact Finset.card_pos.2 ⟨f, by simp [fibre, hf, hm]⟩
  · simp only
    rw [chanAccum, chanAccum, hfib, Finset.card_eq_sum_ones]
  all_goals
    simp only
    rw [chanAccum, hfib]

/-- C17. The totals of width, effective bandwidth and resolution are conserved. -/
theorem C17_totals_conserved (nchan bin : Nat) (hb : 1 ≤ bin) (x : Nat → K)
    (out : ChanAverageOutput K) (a : Nat → K)
    (h : (out = chanAverage nchan (channelMapper nchan bin).1 none (some x) none none ∧
        out.chanWidth = some a) ∨
      (out = chanAverage nchan (channelMapper nchan bin).1 none none (some x) none ∧
        out.effectiveBw = some a) ∨
      (out = chanAverage nchan (channelMapper nchan bin).1 none none none (some x) ∧
        out.resolution = some a)) :
    ∑ o ∈ Finset.range (channelMapper nchan bin).2, a o = ∑ f ∈ Finset.range nchan, x f := by
  have ha : a = forRange nchan (fun _ => (0 : K)) fun f a => add1 a ((channelMapper nchan bin).1 f) (x f) := by
    rcases h with ⟨rfl, h⟩ | ⟨rfl, h⟩ | ⟨rfl, h⟩ <;> exact (Option.some.inj h).symm
  obtain ⟨_, _, hin, _⟩ := C01_channel_map nchan bin hb
  rw [← Finset.sum_fiberwise_of_maps_to (s := Finset.range nchan)
    (t := Finset.range (channelMapper nchan bin).2) (g := (channelMapper nchan bin).1)
    (fun f hf => Finset.mem_range.2 (hin f (Finset.mem_range.1 hf)))]
  refine Finset.sum_congr rfl fun o _ => ?_
  rw [ha, chanAccum]
  rfl

example : ∃ af, (chanAverage (K := ℚ) 5 (channelMapper 5 2).1 (some fun f => f) none none none).chanFreq =
    some af ∧ af 0 = 1 / 2 ∧ af 2 = 4 := by
  refine ⟨_, rfl, by decide +kernel, by decide +kernel⟩

end cube

/-! ### C18 -/

theorem allFlagged_iff (nchan ncorr : Nat) (fl : Nat → Nat → Nat → Nat) (r : Nat) :
    allFlagged nchan ncorr fl r = true ↔ ∀ f < nchan, ∀ c < ncorr, fl r f c ≠ 0 := by
  simp [allFlagged, List.all_eq_true]

/-- C18. Both given: the merge returns `flag_row` if it agrees with `flag` on every row and raises
`ValueError` otherwise. -/
theorem C18_merge_both (n nchan ncorr : Nat) (fr : Nat → Nat) (fl : Nat → Nat → Nat → Nat) :
    ((∀ r < n, fr r ≠ 0 ↔ ∀ f < nchan, ∀ c < ncorr, fl r f c ≠ 0) →
      mergeFlags n nchan ncorr (some fr) (some fl) = .ok (some fr)) ∧
    ((¬ ∀ r < n, fr r ≠ 0 ↔ ∀ f < nchan, ∀ c < ncorr, fl r f c ≠ 0) →
      mergeFlags n nchan ncorr (some fr) (some fl) = .error .valueError) := by
  have hdec : ∀ r, decide (fr r ≠ 0) ≠ allFlagged nchan ncorr fl r ↔
      ¬ (fr r ≠ 0 ↔ ∀ f < nchan, ∀ c < ncorr, fl r f c ≠ 0) := by
    intro r
    rw [← allFlagged_iff]
    cases allFlagged nchan ncorr fl r <;> simp
  unfold mergeFlags
  simp only
  constructor
  · intro hall
    obtain ⟨s, h1, _⟩ := forRangeM_ok_inv (n := n) (init := ())
      (f := fun r _ => if decide (fr r ≠ 0) ≠ allFlagged nchan ncorr fl r then .error .valueError
        else (.ok () : Except PyErr Unit)) (fun _ _ => True) trivial
      (fun r s hr _ => ⟨(), by rw [if_neg]; rw [hdec]; exact not_not.2 (hall r hr), trivial⟩)
    rw [h1]
  · intro hn
    cases hc : forRangeM n () (fun r _ =>
        if decide (fr r ≠ 0) ≠ allFlagged nchan ncorr fl r then .error .valueError
        else (.ok () : Except PyErr Unit)) with
    | error e =>
      obtain ⟨i, s, _, he⟩ := forRangeM_error hc
      split at he
      · cases he; rfl
      · cases he
    | ok u =>
      exfalso
      apply hn
      have := forRangeM_of_ok (P := fun k _ => ∀ r < k,
        (fr r ≠ 0 ↔ ∀ f < nchan, ∀ c < ncorr, fl r f c ≠ 0)) (by simp) (by
          intro i s s' _ hP he r hr
          rcases Nat.lt_succ_iff_lt_or_eq.1 hr with h | h
          · exact hP r h
          · subst h
            by_contra hc
            rw [if_pos ((hdec _).2 hc)] at he
            cases he) hc
      exact this

/-- C18. Only `flag` given: the rows all of whose samples are flagged get 1, the others 0. -/
theorem C18_merge_flag_only (n nchan ncorr : Nat) (fl : Nat → Nat → Nat → Nat) :
    ∃ fr, mergeFlags n nchan ncorr none (some fl) = .ok (some fr) ∧
      ∀ r < n, (fr r = 0 ∨ fr r = 1) ∧ (fr r = 1 ↔ ∀ f < nchan, ∀ c < ncorr, fl r f c ≠ 0) := by
  refine ⟨_, rfl, ?_⟩
  refine forRange_inv (n := n) (P := fun k (a : Nat → Nat) => ∀ r < k, (a r = 0 ∨ a r = 1) ∧
    (a r = 1 ↔ ∀ f < nchan, ∀ c < ncorr, fl r f c ≠ 0)) (by simp) ?_
  intro i s _ hP r hr
  rw [update_apply]
  split
  · rename_i h
    subst h
    rw [← allFlagged_iff]
    cases allFlagged nchan ncorr fl r <;> simp
  · exact hP r (by omega)

/-- C18. Only `flag_row` or nothing given. -/
theorem C18_merge_rest (n nchan ncorr : Nat) (fr : Nat → Nat) :
    mergeFlags n nchan ncorr (some fr) none = .ok (some fr) ∧
    mergeFlags n nchan ncorr none none = .ok none := ⟨rfl, rfl⟩

example : mergeFlags 1 1 1 (some fun _ => 1) (some fun _ _ _ => 1) = .ok (some fun _ => 1) ∧
    mergeFlags 1 1 1 (some fun _ => 1) (some fun _ _ _ => 0) = .error .valueError := by
  refine ⟨(C18_merge_both 1 1 1 _ _).1 (by simp), (C18_merge_both 1 1 1 _ _).2 ?_⟩
  intro h
  simpa using h 0 (by omega)

/-! ### C15 end to end -/

/-- C15 for the whole call: a sample of the output of `time_and_channel` is flagged iff every input
sample (of every row and channel) mapped to it is. -/
theorem C15_time_and_channel {K : Type*} [Field K] [DecidableEq K] (sqrt : K → K) (junk : Nat → Int)
    (sentinel : ℚ) (n nchan ncorr : Nat) (time interval : Nat → ℚ) (ant1 ant2 : Nat → Int)
    (flagRow : Option (Nat → Nat)) (rowCols : RowCols K)
    (chanFreq chanWidth effectiveBw resolution : Option (Nat → K)) (cols : CubeCols K)
    (secs : ℚ) (bin : Nat) (out : AverageOutput K) (fl : Nat → Nat → Nat → Nat)
    (h32 : ∀ r < n, IsInt32 (ant1 r)) (hsent : ∀ r < n, time r < sentinel)
    (h01 : ZeroOne n flagRow) (hb : 1 ≤ bin) (hfl : cols.flag = some fl)
    (h : timeAndChannel sqrt junk sentinel n nchan ncorr time interval ant1 ant2 flagRow rowCols
      chanFreq chanWidth effectiveBw resolution cols secs bin = .ok out)
    (o fo co : Nat) (ho : o < out.rows.outRows) (hfo : fo < out.outChans) (hco : co < ncorr) :
    ∃ a, out.cubeData.flag = some a ∧ (a o fo co = 0 ∨ a o fo co = 1) ∧
      (a o fo co = 1 ↔ ∀ r < n, ∀ f < nchan, out.rows.map r = o → f / bin = fo → fl r f co ≠ 0) := by
  unfold timeAndChannel at h
  rw [hfl] at h
  -- the merged row flags
  obtain ⟨fr, hm, hfr01, hfr⟩ : ∃ fr, mergeFlags n nchan ncorr flagRow (some fl) = .ok (some fr) ∧
      ZeroOne n (some fr) ∧ ∀ r < n, fr r ≠ 0 → ∀ f < nchan, ∀ c < ncorr, fl r f c ≠ 0 := by
    cases flagRow with
    | none =>
      obtain ⟨fr, h1, h2⟩ := C18_merge_flag_only n nchan ncorr fl
      refine ⟨fr, h1, fun f hf r hr => ?_, fun r hr hne => ?_⟩
      · cases hf; exact (h2 r hr).1
      · rcases (h2 r hr).1 with h0 | h0
        · exact absurd h0 hne
        · exact (h2 r hr).2.1 h0
    | some fr =>
      by_cases hc : ∀ r < n, fr r ≠ 0 ↔ ∀ f < nchan, ∀ c < ncorr, fl r f c ≠ 0
      · exact ⟨fr, (C18_merge_both n nchan ncorr fr fl).1 hc, h01, fun r hr => (hc r hr).1⟩
      · rw [(C18_merge_both n nchan ncorr fr fl).2 hc] at h
        cases h
  rw [hm] at h
  simp only at h
  cases hrm : rowMapper sentinel n time interval ant1 ant2 (some fr) secs with
  | error e => rw [hrm] at h; cases h
  | ok rm =>
    rw [hrm] at h
    simp only at h
    obtain ⟨hc1, hc2, _, _⟩ := C01_channel_map nchan bin hb
    obtain ⟨cube, a, h1, h2, h3⟩ := C15_flag_conjunction sqrt nchan ncorr bin cols h32 hsent hfr01 hb hrm
      fl hfl
    rw [h1] at h
    simp only [Except.ok.injEq] at h
    subst h
    simp only at ho hfo ⊢
    have hn : 0 < nchan := by
      rcases Nat.eq_zero_or_pos nchan with h0 | h0
      · rw [hc2, h0, Nat.zero_add, Nat.div_eq_of_lt (a := bin - 1) (by omega)] at hfo
        omega
      · exact h0
    refine ⟨a, h2 (by omega) hn (by omega), (h3 o ho fo hfo co hco).1, ?_⟩
    rw [(h3 o ho fo hfo co hco).2]
    constructor
    · intro hall r hr f hf hro hfo'
      by_cases hflg : fr r ≠ 0
      · exact hfr r hr hflg f hf co hco
      · refine hall (r, f) ?_
        have hrm' : r ∈ fibre n rm.map o := by simp [fibre, hr, hro]
        have hfm : f ∈ fibre nchan (channelMapper nchan bin).1 fo := by
          simp [fibre, hf, hc1 f hf, hfo']
        unfold binSamples
        rw [Finset.mem_product]
        refine ⟨?_, hfm⟩
        unfold contributors
        split
        · exact hrm'
        · simp only [Finset.mem_filter]
          exact ⟨hrm', hflg⟩
    · intro hall p hp
      unfold binSamples at hp
      rw [Finset.mem_product] at hp
      have hp1 : p.1 ∈ fibre n rm.map o := by
        have := hp.1
        unfold contributors at this
        split at this
        · exact this
        · exact (Finset.mem_filter.1 this).1
      have hp2 := hp.2
      simp only [fibre, Finset.mem_filter, Finset.mem_range] at hp1 hp2
      exact hall p.1 hp1.1 p.2 hp2.1 hp1.2 (by rw [← hc1 p.2 hp2.1]; exact hp2.2)

/-- C06/C15/C18 for the whole call: `time_and_channel` succeeds exactly when no two rows share time and
antennas and the row flags, if both kinds of flags are given, agree with the sample flags; otherwise
it raises `ValueError`. -/
theorem C06_time_and_channel_outcome {K : Type*} [Field K] [DecidableEq K] (sqrt : K → K)
    (junk : Nat → Int) (sentinel : ℚ) (n nchan ncorr : Nat) (time interval : Nat → ℚ)
    (ant1 ant2 : Nat → Int) (flagRow : Option (Nat → Nat)) (rowCols : RowCols K)
    (chanFreq chanWidth effectiveBw resolution : Option (Nat → K)) (cols : CubeCols K)
    (secs : ℚ) (bin : Nat)
    (h32 : ∀ r < n, IsInt32 (ant1 r)) (hsent : ∀ r < n, time r < sentinel)
    (h01 : ZeroOne n flagRow) (hb : 1 ≤ bin)
    (good : Prop) (hgood : good ↔ NoDup n time ant1 ant2 ∧
      ∀ fr fl, flagRow = some fr → cols.flag = some fl →
        ∀ r < n, fr r ≠ 0 ↔ ∀ f < nchan, ∀ c < ncorr, fl r f c ≠ 0) :
    (good → ∃ out, timeAndChannel sqrt junk sentinel n nchan ncorr time interval ant1 ant2 flagRow
      rowCols chanFreq chanWidth effectiveBw resolution cols secs bin = .ok out) ∧
    (¬ good → timeAndChannel sqrt junk sentinel n nchan ncorr time interval ant1 ant2 flagRow
      rowCols chanFreq chanWidth effectiveBw resolution cols secs bin = .error .valueError) := by
  -- outcome of the flag merge
  have hmerge : (∃ fr, mergeFlags n nchan ncorr flagRow cols.flag = .ok fr ∧ ZeroOne n fr ∧
        ∀ fr fl, flagRow = some fr → cols.flag = some fl →
          ∀ r < n, fr r ≠ 0 ↔ ∀ f < nchan, ∀ c < ncorr, fl r f c ≠ 0) ∨
      (mergeFlags n nchan ncorr flagRow cols.flag = .error .valueError ∧
        ¬ ∀ fr fl, flagRow = some fr → cols.flag = some fl →
          ∀ r < n, fr r ≠ 0 ↔ ∀ f < nchan, ∀ c < ncorr, fl r f c ≠ 0) := by
    cases hf : cols.flag with
    | none =>
      left
      refine ⟨flagRow, ?_, h01, fun fr fl _ h => by cases h⟩
      cases flagRow <;> rfl
    | some fl =>
      cases flagRow with
      | none =>
        left
        obtain ⟨fr, h1, h2⟩ := C18_merge_flag_only n nchan ncorr fl
        exact ⟨some fr, h1, fun f hf r hr => by cases hf; exact (h2 r hr).1, fun _ _ h => by cases h⟩
      | some fr =>
        by_cases hc : ∀ r < n, fr r ≠ 0 ↔ ∀ f < nchan, ∀ c < ncorr, fl r f c ≠ 0
        · left
          exact ⟨some fr, (C18_merge_both n nchan ncorr fr fl).1 hc, h01,
            fun _ _ h h' => by cases h; cases h'; exact hc⟩
        · right
          exact ⟨(C18_merge_both n nchan ncorr fr fl).2 hc, fun h => hc (h fr fl rfl rfl)⟩
  rw [hgood]
  unfold timeAndChannel
  rcases hmerge with ⟨fr, hm, hz, hc⟩ | ⟨hm, hc⟩
  · rw [hm]
    simp only
    by_cases hd : NoDup n time ant1 ant2
    · obtain ⟨rm, hrm, _⟩ := rowMapper_ok (interval := interval) (flagRow := fr) (secs := secs)
        h32 hsent hd
      rw [hrm]
      simp only
      obtain ⟨cube, hcube⟩ := C15_no_zero_filled_bin sqrt nchan ncorr bin cols h32 hsent hz hb hrm
      rw [hcube]
      exact ⟨fun _ => ⟨_, rfl⟩, fun h => absurd ⟨hd, hc⟩ h⟩
    · rw [rowMapper_dup hd]
      exact ⟨fun h => absurd h.1 hd, fun _ => rfl⟩
  · rw [hm]
    exact ⟨fun h => absurd h.2 hc, fun _ => rfl⟩

/-- The hypotheses of C14-C16 hold for two rows of one baseline, three channels, one flagged
sample: a non-trivial bin. -/
example : ∃ out, timeAndChannel (K := ℚ) id (fun _ => 0) 1000 2 3 1 (fun r => (r : ℚ)) (fun _ => 1)
    (fun _ => 0) (fun _ => 1) none ⟨none, none, none, none, none⟩ none none none none
    ⟨none, some fun r f _ => (r + f : ℚ), some fun r f _ => if r = 0 ∧ f = 0 then 1 else 0, none, none⟩
    10 2 = .ok out := by
  refine (C06_time_and_channel_outcome id (fun _ => 0) 1000 2 3 1 (fun r => (r : ℚ)) (fun _ => 1)
    (fun _ => 0) (fun _ => 1) none _ none none none none _ 10 2 ?_ ?_ ?_ (by omega) True ?_).1 trivial
  · unfold IsInt32; decide
  · have hs : ∀ r < (2 : Nat), (r : ℚ) < 1000 := by decide +kernel
    exact hs
  · intro f hf; cases hf
  · refine iff_of_true trivial ⟨by unfold NoDup; decide +kernel, fun fr fl h => by cases h⟩

/-! ### C19, C20 -/

/-- C19 (partial). For (row, chan, corr) data the declared channel chunks are the computed ones.
Missing: the channel metadata arrays, for which it is false; see `C19_violated`. -/
theorem C19_row_chan_chunks_partial (bin : Nat) (hb : 1 ≤ bin) (chunks : List Nat) :
    daskRowChanDeclared bin chunks = computedChanChunks bin chunks := by
  unfold daskRowChanDeclared declaredChanChunks computedChanChunks
  exact List.map_congr_left fun c _ => ((C01_channel_map c bin hb).2.1).symm

/-- C19 is violated for channel metadata: declared and computed chunks agree only if every chunk has
at most one channel or the bin size is 1. -/
theorem C19_violated (bin : Nat) (hb : 1 ≤ bin) (chunks : List Nat) :
    daskChanDeclared bin chunks = computedChanChunks bin chunks ↔ bin = 1 ∨ ∀ c ∈ chunks, c ≤ 1 := by
  unfold daskChanDeclared declaredChanChunks computedChanChunks
  rw [List.map_inj_left]
  constructor
  · intro h
    by_contra hc
    push Not at hc
    obtain ⟨hb1, c, hc, hc1⟩ := hc
    have := h c hc
    rw [(C01_channel_map c bin hb).2.1] at this
    simp only [Nat.add_sub_cancel, Nat.div_one] at this
    have h2 : (c + bin - 1) / bin < c := by
      rw [Nat.div_lt_iff_lt_mul (by omega)]
      obtain ⟨b, rfl⟩ : ∃ b, bin = b + 2 := ⟨bin - 2, by omega⟩
      obtain ⟨d, rfl⟩ : ∃ d, c = d + 2 := ⟨c - 2, by omega⟩
      ring_nf
      omega
    omega
  · rintro (rfl | h) c hc
    · rw [(C01_channel_map c 1 hb).2.1]
    · rw [(C01_channel_map c bin hb).2.1]
      rcases (by have := h c hc; omega : c = 0 ∨ c = 1) with rfl | rfl
      · have : (0 + bin - 1) / bin = 0 := Nat.div_eq_of_lt (by omega)
        rw [this]
      · have : 1 + bin - 1 = bin := by omega
        rw [this, Nat.div_self (show 0 < bin by omega)]

example : daskChanDeclared 4 [16, 16] = [16, 16] ∧ computedChanChunks 4 [16, 16] = [4, 4] := by decide

theorem chanMetadataChunks_none (rowChanArrays chanArrays : List (Option (List Nat))) :
    chanMetadataChunks rowChanArrays chanArrays = none ↔
      (∀ x ∈ rowChanArrays, x = none) ∧ ∀ x ∈ chanArrays, x = none := by
  unfold chanMetadataChunks
  cases h : rowChanArrays.findSome? id with
  | none =>
    simp only [List.findSome?_eq_none_iff, id] at h ⊢
    exact ⟨fun h' => ⟨h, h'⟩, fun h' => h'.2⟩
  | some c =>
    simp only [reduceCtorEq, false_iff, not_and]
    intro h'
    rw [(List.findSome?_eq_none_iff (p := id)).2 h'] at h
    cases h

/-- C20 (partial). The (row, chan, corr) outputs are the four arrays, absent where the input is
absent, also when no channel array is supplied at all. Missing: the channel outputs; see
`C20_violated`. -/
theorem C20_row_chan_absent_partial {α : Type*} (rowChanArrays chanArrays : List (Option (List Nat)))
    (a b c d : Option α) (h : (∀ x ∈ rowChanArrays, x = none) → [a, b, c, d] = [none, none, none, none]) :
    daskRowChanAverage (chanMetadataChunks rowChanArrays chanArrays) [a, b, c, d] =
      .ok [a, b, c, d] := by
  unfold daskRowChanAverage
  split
  · rename_i hn
    rw [h ((chanMetadataChunks_none _ _).1 hn).1]
    rfl
  · rfl

/-- C20 is violated: the call fails with `TypeError` exactly when no channel-dependent array at all
is supplied, that is exactly in the row-only use the property is about. -/
theorem C20_violated {α : Type*} (rowChanArrays chanArrays : List (Option (List Nat)))
    (a b c d : Option α) :
    daskChanAverage (chanMetadataChunks rowChanArrays chanArrays) [a, b, c, d] = .error .typeError ↔
      (∀ x ∈ rowChanArrays, x = none) ∧ ∀ x ∈ chanArrays, x = none := by
  rw [← chanMetadataChunks_none]
  unfold daskChanAverage namedTuple
  split
  · simp_all
  · simp_all

example : daskChanAverage (α := Nat) (chanMetadataChunks [none, none, none, none]
    [none, none, none, none]) [none, none, none, none] = .error .typeError ∧
    daskChanAverage (chanMetadataChunks [none, none, none, none] [some [4], none, none, none])
      [some 1, none, none, none] = .ok [some 1, none, none, none] := by decide

/-! ### C90: shape consistency -/

theorem findDim_spec (cur : Nat) (d : Option Nat) :
    (∀ e, findDim cur d = .error e → e = .valueError ∧ cur ≠ 0 ∧ ∃ x, d = some x ∧ x ≠ cur) ∧
    (∀ v, findDim cur d = .ok v → (d = none ∧ v = cur) ∨ (∃ x, d = some x ∧ v = x ∧ (cur = 0 ∨ cur = x))) := by
  unfold findDim
  constructor
  · intro e h
    split at h
    · cases h
    · split at h
      · cases h
      · split at h
        · cases h; exact ⟨rfl, by assumption, _, rfl, by rename_i h; exact Ne.symm h⟩
        · cases h
  · intro v h
    split at h
    · cases h; exact Or.inl ⟨rfl, rfl⟩
    · split at h
      · cases h; right; exact ⟨_, rfl, rfl, Or.inl (by assumption)⟩
      · split at h
        · cases h
        · cases h; right; rename_i h1 h2; exact ⟨_, rfl, by simpa using h2, Or.inr (by simpa using h2)⟩

/-- C90. With positive extents, `chan_corrs` succeeds exactly when all supplied arrays agree on
the number of channels and on the number of correlations (each over the arrays that have the axis),
and otherwise raises `ValueError`. -/
theorem C90_chan_corrs (arrays : List (Option Nat × Option Nat))
    (hpos : ∀ a ∈ arrays, (∀ x, a.1 = some x → 0 < x) ∧ (∀ x, a.2 = some x → 0 < x)) :
    (∀ v, chanCorrs arrays = .ok v →
      (∀ a ∈ arrays, (∀ x, a.1 = some x → x = v.1) ∧ (∀ x, a.2 = some x → x = v.2)) ∧
      ((∀ a ∈ arrays, a.1 = none) → v.1 = 0) ∧ ((∀ a ∈ arrays, a.2 = none) → v.2 = 0)) ∧
    (∀ e, chanCorrs arrays = .error e → e = .valueError ∧
      ∃ a ∈ arrays, ∃ b ∈ arrays, ∃ x y, x ≠ y ∧
        ((a.1 = some x ∧ b.1 = some y) ∨ (a.2 = some x ∧ b.2 = some y))) := by
  unfold chanCorrs
  -- generalise over the accumulated dimensions
  have key : ∀ (done todo : List (Option Nat × Option Nat)) (cur : Nat × Nat),
      (∀ a ∈ done ++ todo, (∀ x, a.1 = some x → 0 < x) ∧ (∀ x, a.2 = some x → 0 < x)) →
      (∀ a ∈ done, (∀ x, a.1 = some x → x = cur.1) ∧ (∀ x, a.2 = some x → x = cur.2)) →
      (cur.1 ≠ 0 → ∃ a ∈ done, a.1 = some cur.1) →
      (cur.2 ≠ 0 → ∃ a ∈ done, a.2 = some cur.2) →
      (∀ v, todo.foldlM findChanCorr cur = .ok v →
        (∀ a ∈ done ++ todo, (∀ x, a.1 = some x → x = v.1) ∧ (∀ x, a.2 = some x → x = v.2)) ∧
        (v.1 ≠ 0 → ∃ a ∈ done ++ todo, a.1 = some v.1) ∧
        (v.2 ≠ 0 → ∃ a ∈ done ++ todo, a.2 = some v.2)) ∧
      (∀ e, todo.foldlM findChanCorr cur = .error e → e = .valueError ∧
        ∃ a ∈ done ++ todo, ∃ b ∈ done ++ todo, ∃ x y, x ≠ y ∧
          ((a.1 = some x ∧ b.1 = some y) ∨ (a.2 = some x ∧ b.2 = some y))) := by
    intro done todo
    induction todo generalizing done with
    | nil =>
      intro cur _ h1 h2 h3
      refine ⟨?_, ?_⟩
      · intro v hv
        simp only [List.foldlM_nil, pure, Except.pure, Except.ok.injEq] at hv
        subst hv
        simp only [List.append_nil]
        exact ⟨h1, h2, h3⟩
      · intro e he
        simp [pure, Except.pure] at he
    | cons d todo ih =>
      intro cur hp h1 h2 h3
      have hd := hp d (by simp)
      rw [List.foldlM_cons]
      cases e1 : findDim cur.1 d.1 with
      | error e =>
        obtain ⟨hv, hne, x, hx, hxc⟩ := (findDim_spec cur.1 d.1).1 e e1
        have hf : findChanCorr cur d = .error e := by unfold findChanCorr; rw [e1]
        rw [hf]
        refine ⟨fun v hv' => (by simp [bind, Except.bind] at hv'), fun e' he' => ?_⟩
        simp only [bind, Except.bind, Except.error.injEq] at he'
        subst he'
        obtain ⟨a, ha, hac⟩ := h2 hne
        exact ⟨hv, a, by simp [ha], d, by simp, cur.1, x, Ne.symm hxc, Or.inl ⟨hac, hx⟩⟩
      | ok c1 =>
        cases e2 : findDim cur.2 d.2 with
        | error e =>
          obtain ⟨hv, hne, x, hx, hxc⟩ := (findDim_spec cur.2 d.2).1 e e2
          have hf : findChanCorr cur d = .error e := by unfold findChanCorr; rw [e1, e2]
          rw [hf]
          refine ⟨fun v hv' => (by simp [bind, Except.bind] at hv'), fun e' he' => ?_⟩
          simp only [bind, Except.bind, Except.error.injEq] at he'
          subst he'
          obtain ⟨a, ha, hac⟩ := h3 hne
          exact ⟨hv, a, by simp [ha], d, by simp, cur.2, x, Ne.symm hxc, Or.inr ⟨hac, hx⟩⟩
        | ok c2 =>
          have hf : findChanCorr cur d = .ok (c1, c2) := by unfold findChanCorr; rw [e1, e2]
          rw [hf]
          simp only [bind, Except.bind]
          have hs1 := (findDim_spec cur.1 d.1).2 c1 e1
          have hs2 := (findDim_spec cur.2 d.2).2 c2 e2
          have := ih (done ++ [d]) (c1, c2) (by simpa using hp) ?_ ?_ ?_
          · simpa using this
          · intro a ha
            rw [List.mem_append, List.mem_singleton] at ha
            rcases ha with ha | rfl
            · obtain ⟨q1, q2⟩ := h1 a ha
              have hpa := hp a (by simp [ha])
              refine ⟨fun x hx => ?_, fun x hx => ?_⟩
              · have := q1 x hx
                have := hpa.1 x hx
                rcases hs1 with ⟨_, h⟩ | ⟨y, _, h, h'⟩ <;> simp only <;> omega
              · have := q2 x hx
                have := hpa.2 x hx
                rcases hs2 with ⟨_, h⟩ | ⟨y, _, h, h'⟩ <;> simp only <;> omega
            · refine ⟨fun x hx => ?_, fun x hx => ?_⟩
              · rcases hs1 with ⟨h, _⟩ | ⟨y, hy, h, h'⟩
                · rw [h] at hx; cases hx
                · rw [hy] at hx; cases hx; exact h.symm
              · rcases hs2 with ⟨h, _⟩ | ⟨y, hy, h, h'⟩
                · rw [h] at hx; cases hx
                · rw [hy] at hx; cases hx; exact h.symm
          · intro hne
            simp only at hne ⊢
            rcases hs1 with ⟨_, h⟩ | ⟨y, hy, h, h'⟩
            · obtain ⟨a, ha, hac⟩ := h2 (by omega)
              exact ⟨a, by simp [ha], by rw [hac, h]⟩
            · exact ⟨d, by simp, by rw [hy, h]⟩
          · intro hne
            simp only at hne ⊢
            rcases hs2 with ⟨_, h⟩ | ⟨y, hy, h, h'⟩
            · obtain ⟨a, ha, hac⟩ := h3 (by omega)
              exact ⟨a, by simp [ha], by rw [hac, h]⟩
            · exact ⟨d, by simp, by rw [hy, h]⟩
  have := key [] arrays (0, 0) (by simpa using hpos) (by simp) (by simp) (by simp)
  simp only [List.nil_append] at this
  refine ⟨fun v hv => ?_, this.2⟩
  obtain ⟨q1, q2, q3⟩ := this.1 v hv
  refine ⟨q1, fun h => ?_, fun h => ?_⟩
  · by_contra hne
    obtain ⟨a, ha, hx⟩ := q2 hne
    rw [h a ha] at hx; cases hx
  · by_contra hne
    obtain ⟨a, ha, hx⟩ := q3 hne
    rw [h a ha] at hx; cases hx

example : chanCorrs [(some 16, some 4), (none, none), (some 16, none)] = .ok (16, 4) ∧
    chanCorrs [(some 16, some 4), (some 8, none)] = .error .valueError := by decide

end Verif.Averaging
