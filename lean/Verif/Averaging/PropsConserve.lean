/-
C181: averaging conserves what the good samples carry.
-/
import Verif.Averaging.Props3

set_option autoImplicit false

namespace Verif.Averaging

open Finset

/-! ### Specification -/

/-- A sample that neither the flags of the rows nor those of the samples exclude. -/
def Good (flagRow : Option (Nat → Nat)) (flag : Option (Nat → Nat → Nat → Nat)) (r f c : Nat) : Prop :=
  ¬ rowFlagged flagRow r ∧ ¬ sampleFlagged flag r f c

instance (flagRow : Option (Nat → Nat)) (flag : Option (Nat → Nat → Nat → Nat)) (r f c : Nat) : Decidable (Good flagRow flag r f c) := by
  unfold Good; infer_instance

/-- The sum of `x` over the good samples of an array of `nr` rows and `nf` channels. -/
def goodSum {K : Type*} [AddCommMonoid K] (flagRow : Option (Nat → Nat)) (flag : Option (Nat → Nat → Nat → Nat)) (nr nf c : Nat)
    (x : Nat → Nat → K) : K :=
  ∑ r ∈ range nr, ∑ f ∈ range nf, if Good flagRow flag r f c then x r f else 0

/-! ### Lemmas -/

section
variable {K : Type*} [Field K] [DecidableEq K]

/-- The merged row flags exclude the samples that the row flags and the sample flags exclude, and no others. -/
theorem merged_good (n nchan ncorr : Nat) (flagRow : Option (Nat → Nat))
    (flag : Option (Nat → Nat → Nat → Nat)) (h01 : ZeroOne n flagRow) (fr : Option (Nat → Nat))
    (h : mergeFlags n nchan ncorr flagRow flag = .ok fr) : ZeroOne n fr ∧
      ∀ r < n, ∀ f < nchan, ∀ c < ncorr, Good fr flag r f c ↔ Good flagRow flag r f c := by
  cases flag with
  | none =>
    have : fr = flagRow := by
      cases flagRow with
      | none => rw [(C18_merge_rest n nchan ncorr fun _ => 0).2] at h; cases h; rfl
      | some f => rw [(C18_merge_rest n nchan ncorr f).1] at h; cases h; rfl
    rw [this]; exact ⟨h01, fun _ _ _ _ _ _ => Iff.rfl⟩
  | some fl =>
    cases flagRow with
    | none =>
      obtain ⟨g, h1, h2⟩ := C18_merge_flag_only n nchan ncorr fl
      rw [h1] at h
      cases h
      refine ⟨fun g' hg r hr => by cases hg; exact (h2 r hr).1, fun r hr f hf c hc => ?_⟩
      unfold Good rowFlagged sampleFlagged
      simp only [not_not, not_false_eq_true, true_and, and_iff_right_iff_imp]
      intro h0
      rcases (h2 r hr).1 with e | e
      · exact e
      · exact absurd h0 ((h2 r hr).2.1 e f hf c hc)
    | some g =>
      by_cases hc : ∀ r < n, g r ≠ 0 ↔ ∀ i < nchan, ∀ c < ncorr, fl r i c ≠ 0
      · rw [(C18_merge_both n nchan ncorr g fl).1 hc] at h
        cases h
        exact ⟨h01, fun _ _ _ _ _ _ => Iff.rfl⟩
      · rw [(C18_merge_both n nchan ncorr g fl).2 hc] at h
        cases h

private theorem flag_none {sqrt : K → K} {n nchan ncorr : Nat} {rm : RowMapOutput} {fr : Option (Nat → Nat)} {cm : Nat → Nat}
    {nout : Nat} {cols : CubeCols K} {cube : RowChanAverageOutput K}
    (h : rowChanAverage sqrt n nchan ncorr rm fr cm nout cols = .ok cube) (hf : cols.flag = none) : cube.flag = none := by
  unfold rowChanAverage at h
  simp only at h
  split at h
  · cases h
  · cases h
    simp only [hf, Option.map_none]

omit [DecidableEq K] in
/-- What a bin holds: if it is not excluded, exactly the good samples are used, and otherwise there are none. -/
private theorem bin_good {n nchan : Nat} {m cm : Nat → Nat} {fr : Option (Nat → Nat)} {flag : Option (Nat → Nat → Nat → Nat)} {o fo c : Nat}
    (x : Nat → Nat → K) :
    (if (¬ ∀ r ∈ fibre n m o, rowFlagged fr r) ∧ ¬ ∀ p ∈ binSamples n nchan m fr cm o fo, sampleFlagged flag p.1 p.2 c then
      ∑ p ∈ usedSamples flag (binSamples n nchan m fr cm o fo) c, x p.1 p.2 else 0) =
    ∑ r ∈ fibre n m o, ∑ f ∈ fibre nchan cm fo, if Good fr flag r f c then x r f else 0 := by
  rw [← sum_product', ← sum_filter]
  by_cases h1 : ∀ r ∈ fibre n m o, rowFlagged fr r
  · rw [if_neg (by tauto)]
    symm
    apply sum_eq_zero
    intro p hp
    obtain ⟨hp, hg⟩ := mem_filter.1 hp
    exact absurd (h1 _ (mem_product.1 hp).1) hg.1
  have hB : binSamples n nchan m fr cm o fo = ((fibre n m o).filter fun r => ¬ rowFlagged fr r) ×ˢ fibre nchan cm fo := by
    unfold binSamples contributors
    rw [if_neg h1]
  by_cases h2 : ∀ p ∈ binSamples n nchan m fr cm o fo, sampleFlagged flag p.1 p.2 c
  · rw [if_neg (by tauto)]
    symm
    apply sum_eq_zero
    intro p hp
    obtain ⟨hp, hg⟩ := mem_filter.1 hp
    obtain ⟨e1, e2⟩ := mem_product.1 hp
    refine absurd (h2 p ?_) hg.2
    rw [hB]
    exact mem_product.2 ⟨mem_filter.2 ⟨e1, hg.1⟩, e2⟩
  rw [if_pos ⟨h1, h2⟩, usedSamples, if_neg h2]
  refine sum_congr ?_ fun _ _ => rfl
  ext p
  rw [hB]
  simp only [mem_filter, mem_product]
  unfold Good
  tauto

omit [DecidableEq K] in
/-- Sums over bins are sums over samples. -/
private theorem sum_bins {n nout nchan fout : Nat} {m cm : Nat → Nat} (hm : ∀ r < n, m r < nout) (hc : ∀ f < nchan, cm f < fout)
    (y : Nat → Nat → K) :
    ∑ o ∈ range nout, ∑ fo ∈ range fout, ∑ r ∈ fibre n m o, ∑ f ∈ fibre nchan cm fo, y r f =
      ∑ r ∈ range n, ∑ f ∈ range nchan, y r f := by
  rw [← sum_fiberwise_of_maps_to (s := range n) (t := range nout) (g := m) (fun r hr => mem_range.2 (hm r (mem_range.1 hr)))]
  refine sum_congr rfl fun o _ => ?_
  rw [sum_comm]
  refine sum_congr rfl fun r _ => ?_
  exact sum_fiberwise_of_maps_to (s := range nchan) (t := range fout) (g := cm)
    (fun f hf => mem_range.2 (hc f (mem_range.1 hf))) _

private theorem conserved (sqrt : K → K) (junk : Nat → Int)
    (sentinel : ℚ) (n nchan ncorr : Nat) (time interval : Nat → ℚ) (ant1 ant2 : Nat → Int)
    (flagRow : Option (Nat → Nat)) (rowCols : RowCols K)
    (chanFreq chanWidth effectiveBw resolution : Option (Nat → K)) (cols : CubeCols K)
    (secs : ℚ) (bin : Nat) (out : AverageOutput K)
    (h32 : ∀ r < n, IsInt32 (ant1 r)) (hsent : ∀ r < n, time r < sentinel)
    (h01 : ZeroOne n flagRow) (hb : 1 ≤ bin)
    (h : timeAndChannel sqrt junk sentinel n nchan ncorr time interval ant1 ant2 flagRow rowCols
      chanFreq chanWidth effectiveBw resolution cols secs bin = .ok out) :
    ∃ S : Nat → Nat → Nat → Finset (Nat × Nat), (∀ o < out.rows.outRows, ∀ fo < out.outChans, ∀ co < ncorr,
      (∀ v, cols.vis = some v → ∃ a, out.cubeData.vis = some a ∧
        (∑ p ∈ S o fo co, sampleWt cols.weightSpectrum cols.weight p.1 p.2 co ≠ 0 →
          a o fo co = (∑ p ∈ S o fo co, v p.1 p.2 co * sampleWt cols.weightSpectrum cols.weight p.1 p.2 co) /
            ∑ p ∈ S o fo co, sampleWt cols.weightSpectrum cols.weight p.1 p.2 co) ∧
        ((∀ p ∈ S o fo co, sampleWt cols.weightSpectrum cols.weight p.1 p.2 co = 0) → a o fo co = 0)) ∧
      (∀ ws, cols.weightSpectrum = some ws → ∃ a, out.cubeData.weightSpectrum = some a ∧ a o fo co = ∑ p ∈ S o fo co, ws p.1 p.2 co)) ∧
      ∀ co < ncorr, ∀ x : Nat → Nat → K,
        goodSum out.rows.flagRow out.cubeData.flag out.rows.outRows out.outChans co (fun o fo => ∑ p ∈ S o fo co, x p.1 p.2) =
          goodSum flagRow cols.flag n nchan co x := by
  unfold timeAndChannel at h
  cases hm : mergeFlags n nchan ncorr flagRow cols.flag with
  | error e => rw [hm] at h; cases h
  | ok fr =>
    rw [hm] at h
    simp only at h
    obtain ⟨hz, hgood⟩ := merged_good n nchan ncorr flagRow cols.flag h01 fr hm
    cases hrm : rowMapper sentinel n time interval ant1 ant2 fr secs with
    | error e => rw [hrm] at h; cases h
    | ok rm =>
      rw [hrm] at h
      simp only at h
      obtain ⟨cube, hcube, hmain⟩ := rowChan_main sqrt nchan ncorr bin cols h32 hsent hz hb hrm
      have hok := (rowMapOK_of_ok h32 hsent hrm).2
      obtain ⟨_, _, hin, _⟩ := C01_channel_map nchan bin hb
      rw [hcube] at h
      simp only [Except.ok.injEq] at h
      subst h
      simp only
      refine ⟨fun o fo co => usedSamples cols.flag
        (binSamples n nchan rm.map fr (channelMapper nchan bin).1 o fo) co, ?_, ?_⟩
      · intro o ho fo hfo co hco
        obtain ⟨_, _, hvis, _, hws, _⟩ := hmain o ho fo hfo co hco _ rfl _ rfl _ rfl
        exact ⟨hvis, hws⟩
      · intro co hco x
        unfold goodSum
        rw [← sum_bins hok.inRange hin]
        refine sum_congr rfl fun o ho => sum_congr rfl fun fo hfo => ?_
        have ho' := mem_range.1 ho
        have hfo' := mem_range.1 hfo
        have e1 : rowFlagged rm.flagRow o ↔ ∀ r ∈ fibre n rm.map o, rowFlagged fr r := by
          obtain ⟨c1, c2⟩ := C05_flag_conjunction h32 hsent hrm
          cases fr with
          | none =>
            rw [c1 rfl]
            obtain ⟨r, hr, hro⟩ := hok.onto o ho'
            simp only [rowFlagged, false_iff, not_forall, not_false_eq_true, exists_prop, and_true]
            exact ⟨r, by simp [fibre, hr, hro]⟩
          | some g =>
            obtain ⟨k, hk, hk2⟩ := c2 g rfl
            obtain ⟨hk01, hk1⟩ := hk2 o ho'
            rw [hk]
            simp only [rowFlagged]
            rw [← hk1]
            omega
        have e2 : sampleFlagged cube.flag o fo co ↔
            ∀ p ∈ binSamples n nchan rm.map fr (channelMapper nchan bin).1 o fo, sampleFlagged cols.flag p.1 p.2 co := by
          obtain ⟨hne, _, _, hf, _⟩ := hmain o ho' fo hfo' co hco _ rfl _ rfl _ rfl
          cases hfl : cols.flag with
          | none =>
            rw [flag_none hcube hfl]
            obtain ⟨p, hp⟩ := hne
            simp only [sampleFlagged, false_iff, not_forall, not_false_eq_true, exists_prop, and_true]
            exact ⟨p, hp⟩
          | some fl =>
            obtain ⟨a, ha, ha01, ha1⟩ := hf fl hfl
            rw [ha]
            simp only [sampleFlagged]
            rw [← ha1]
            omega
        have e3 : Good rm.flagRow cube.flag o fo co ↔ (¬ ∀ r ∈ fibre n rm.map o, rowFlagged fr r) ∧
            ¬ ∀ p ∈ binSamples n nchan rm.map fr (channelMapper nchan bin).1 o fo, sampleFlagged cols.flag p.1 p.2 co := by
          unfold Good
          rw [e1, e2]
        rw [if_congr e3 rfl rfl, bin_good]
        refine sum_congr rfl fun r hr => sum_congr rfl fun f hf => ?_
        simp only [fibre, mem_filter, mem_range] at hr hf
        rw [if_congr (hgood r hr.1 f hf.1 co hco) rfl rfl]

end

/-! ### C181 -/

variable {K : Type*} [Field K] [DecidableEq K] (sqrt : K → K) (junk : Nat → Int)
    (sentinel : ℚ) (n nchan ncorr : Nat) (time interval : Nat → ℚ) (ant1 ant2 : Nat → Int)
    (flagRow : Option (Nat → Nat)) (rowCols : RowCols K)
    (chanFreq chanWidth effectiveBw resolution : Option (Nat → K)) (cols : CubeCols K)
    (secs : ℚ) (bin : Nat) (out : AverageOutput K)
    (h32 : ∀ r < n, IsInt32 (ant1 r)) (hsent : ∀ r < n, time r < sentinel)
    (h01 : ZeroOne n flagRow) (hb : 1 ≤ bin)
    (h : timeAndChannel sqrt junk sentinel n nchan ncorr time interval ant1 ant2 flagRow rowCols
      chanFreq chanWidth effectiveBw resolution cols secs bin = .ok out)
include h32 hsent h01 hb h

/-- **C181.** Averaging conserves the weight of the good samples: over the samples that no flag excludes, the weights sum to the same
value before and after. -/
theorem C181_weights (ws W : Nat → Nat → Nat → K) (hws : cols.weightSpectrum = some ws) (hW : out.cubeData.weightSpectrum = some W)
    (co : Nat) (hco : co < ncorr) :
    goodSum out.rows.flagRow out.cubeData.flag out.rows.outRows out.outChans co (fun o fo => W o fo co) =
      goodSum flagRow cols.flag n nchan co fun r f => ws r f co := by
  obtain ⟨S, h1, h2⟩ := conserved sqrt junk sentinel n nchan ncorr time interval ant1 ant2 flagRow rowCols chanFreq chanWidth
    effectiveBw resolution cols secs bin out h32 hsent h01 hb h
  rw [← h2 co hco fun r f => ws r f co]
  unfold goodSum
  refine sum_congr rfl fun o ho => sum_congr rfl fun fo hfo => ?_
  obtain ⟨a, ha, e⟩ := (h1 o (mem_range.1 ho) fo (mem_range.1 hfo) co hco).2 ws hws
  rw [hW] at ha
  cases ha
  dsimp only
  rw [e]

/-- **C181.** Averaging conserves the weighted sum of the good visibilities, and so the flux that a naturally weighted image has at the
phase centre. Weights of samples may be zero, but positive ones must not cancel with negative ones. -/
theorem C181_flux (ws W v V : Nat → Nat → Nat → K) (hws : cols.weightSpectrum = some ws) (hW : out.cubeData.weightSpectrum = some W)
    (hv : cols.vis = some v) (hV : out.cubeData.vis = some V) (co : Nat) (hco : co < ncorr)
    (hpos : ∀ S : Finset (Nat × Nat), ∑ p ∈ S, ws p.1 p.2 co = 0 → ∀ p ∈ S, ws p.1 p.2 co = 0) :
    goodSum out.rows.flagRow out.cubeData.flag out.rows.outRows out.outChans co (fun o fo => W o fo co * V o fo co) =
      goodSum flagRow cols.flag n nchan co fun r f => ws r f co * v r f co := by
  obtain ⟨S, h1, h2⟩ := conserved sqrt junk sentinel n nchan ncorr time interval ant1 ant2 flagRow rowCols chanFreq chanWidth
    effectiveBw resolution cols secs bin out h32 hsent h01 hb h
  rw [← h2 co hco fun r f => ws r f co * v r f co]
  unfold goodSum
  refine sum_congr rfl fun o ho => sum_congr rfl fun fo hfo => ?_
  obtain ⟨g1, g2⟩ := h1 o (mem_range.1 ho) fo (mem_range.1 hfo) co hco
  obtain ⟨a, ha, e⟩ := g2 ws hws
  obtain ⟨b, hb', e1, e2⟩ := g1 v hv
  rw [hW] at ha
  rw [hV] at hb'
  cases ha
  cases hb'
  have ew : ∀ p : Nat × Nat, sampleWt cols.weightSpectrum cols.weight p.1 p.2 co = ws p.1 p.2 co := by
    intro p; rw [hws]; rfl
  simp only [ew] at e1 e2
  have key : W o fo co * V o fo co = ∑ p ∈ S o fo co, ws p.1 p.2 co * v p.1 p.2 co := by
    rw [e]
    by_cases h0 : ∑ p ∈ S o fo co, ws p.1 p.2 co = 0
    · rw [h0, zero_mul]
      symm
      exact sum_eq_zero fun p hp => by rw [hpos _ h0 p hp, zero_mul]
    · rw [e1 h0, mul_div_cancel₀ _ h0]
      exact sum_congr rfl fun p _ => mul_comm _ _
  dsimp only
  rw [key]

omit h32 hsent h01 hb h in
/-- The hypotheses can be met and the sums are not empty: one row with three channels at 2, 6 and 100 with weights 1, 3 and 5, the last one
flagged. The average is 5 with weight 4. -/
example : ∃ out : AverageOutput ℚ, timeAndChannel id (fun _ => 0) 1000 1 3 1 (fun _ => 0) (fun _ => 1) (fun _ => 0) (fun _ => 1)
      none ⟨none, none, none, none, none⟩ none none none none
      ⟨none, some fun _ f _ => [2, 6, 100].getD f 0, some fun _ f _ => [0, 0, 1].getD f 0, some fun _ f _ => [1, 3, 5].getD f 0, none⟩
      1 3 = .ok out ∧ out.rows.outRows = 1 ∧ out.outChans = 1 ∧ out.cubeData.vis.map (· 0 0 0) = some 5 ∧
    out.cubeData.weightSpectrum.map (· 0 0 0) = some 4 := by
  have h : (match timeAndChannel (K := ℚ) id (fun _ => 0) 1000 1 3 1 (fun _ => 0) (fun _ => 1) (fun _ => 0) (fun _ => 1)
      none ⟨none, none, none, none, none⟩ none none none none
      ⟨none, some fun _ f _ => [2, 6, 100].getD f 0, some fun _ f _ => [0, 0, 1].getD f 0, some fun _ f _ => [1, 3, 5].getD f 0, none⟩
      1 3 with
    | .error _ => none
    | .ok out => some (out.rows.outRows, out.outChans, out.cubeData.vis.map (· 0 0 0), out.cubeData.weightSpectrum.map (· 0 0 0))) =
      some (1, 1, some 5, some 4) := by
    decide +kernel
  split at h
  · cases h
  · rename_i out e
    simp only [Option.some.injEq, Prod.mk.injEq] at h
    exact ⟨out, e, h.1, h.2.1, h.2.2.1, h.2.2.2⟩

end Verif.Averaging
