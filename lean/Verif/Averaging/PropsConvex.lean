/-
C169: averaging is local, linear and convex in the visibilities.
-/
import Verif.Averaging.Props3
import Mathlib.Analysis.Convex.Combination
import Mathlib.Analysis.Complex.Basic

set_option autoImplicit false

namespace Verif.Averaging

section
variable {K : Type*} [Field K] [DecidableEq K]

private theorem merged_zeroOne (n nchan ncorr : Nat) (flagRow : Option (Nat → Nat))
    (flag : Option (Nat → Nat → Nat → Nat)) (h01 : ZeroOne n flagRow) (fr : Option (Nat → Nat))
    (h : mergeFlags n nchan ncorr flagRow flag = .ok fr) : ZeroOne n fr := by
  cases flag with
  | none =>
    have : fr = flagRow := by
      cases flagRow with
      | none => rw [(C18_merge_rest n nchan ncorr fun _ => 0).2] at h; cases h; rfl
      | some f => rw [(C18_merge_rest n nchan ncorr f).1] at h; cases h; rfl
    rw [this]; exact h01
  | some fl =>
    cases flagRow with
    | none =>
      obtain ⟨f, h1, h2⟩ := C18_merge_flag_only n nchan ncorr fl
      rw [h1] at h
      cases h
      intro g hg r hr
      cases hg
      exact (h2 r hr).1
    | some f =>
      by_cases hc : ∀ r < n, f r ≠ 0 ↔ ∀ i < nchan, ∀ c < ncorr, fl r i c ≠ 0
      · rw [(C18_merge_both n nchan ncorr f fl).1 hc] at h
        cases h
        exact h01
      · rw [(C18_merge_both n nchan ncorr f fl).2 hc] at h
        cases h

/-- The samples of a bin that are averaged, in terms of the flags given: rows and channels of the bin. -/
private theorem used_mem {n nchan bin : Nat} (hb : 1 ≤ bin) {m : Nat → Nat} {fr : Option (Nat → Nat)}
    {flag : Option (Nat → Nat → Nat → Nat)} {o fo co : Nat} {p : Nat × Nat}
    (hp : p ∈ usedSamples flag (binSamples n nchan m fr (channelMapper nchan bin).1 o fo) co) :
    p.1 < n ∧ p.2 < nchan ∧ m p.1 = o ∧ p.2 / bin = fo := by
  have h1 : p ∈ binSamples n nchan m fr (channelMapper nchan bin).1 o fo := by
    unfold usedSamples at hp
    split at hp
    · exact hp
    · exact (Finset.mem_filter.1 hp).1
  unfold binSamples at h1
  rw [Finset.mem_product] at h1
  have h2 : p.1 ∈ fibre n m o := by
    have := h1.1
    unfold contributors at this
    split at this
    · exact this
    · exact (Finset.mem_filter.1 this).1
  have h3 := h1.2
  simp only [fibre, Finset.mem_filter, Finset.mem_range] at h2 h3
  exact ⟨h2.1, h3.1, h2.2, by rw [← (C01_channel_map nchan bin hb).1 p.2 h3.1]; exact h3.2⟩

/-- The visibilities of a call that succeeds. -/
private theorem call_vis (sqrt : K → K) (junk : Nat → Int)
    (sentinel : ℚ) (n nchan ncorr : Nat) (time interval : Nat → ℚ) (ant1 ant2 : Nat → Int)
    (flagRow : Option (Nat → Nat)) (rowCols : RowCols K)
    (chanFreq chanWidth effectiveBw resolution : Option (Nat → K)) (cols : CubeCols K)
    (secs : ℚ) (bin : Nat) (out : AverageOutput K)
    (h32 : ∀ r < n, IsInt32 (ant1 r)) (hsent : ∀ r < n, time r < sentinel)
    (h01 : ZeroOne n flagRow) (hb : 1 ≤ bin)
    (h : timeAndChannel sqrt junk sentinel n nchan ncorr time interval ant1 ant2 flagRow rowCols
      chanFreq chanWidth effectiveBw resolution cols secs bin = .ok out) :
    ∃ S : Nat → Nat → Nat → Finset (Nat × Nat),
      (∀ o < out.rows.outRows, ∀ fo < out.outChans, ∀ co < ncorr, (S o fo co).Nonempty ∧
        ∀ p ∈ S o fo co, p.1 < n ∧ p.2 < nchan ∧ out.rows.map p.1 = o ∧ p.2 / bin = fo) ∧
      ∀ v : Nat → Nat → Nat → K, ∃ out', timeAndChannel sqrt junk sentinel n nchan ncorr time interval ant1 ant2 flagRow
          rowCols chanFreq chanWidth effectiveBw resolution { cols with vis := some v } secs bin = .ok out' ∧
        out'.rows = out.rows ∧ out'.outChans = out.outChans ∧
        ∀ o < out.rows.outRows, ∀ fo < out.outChans, ∀ co < ncorr, ∃ a, out'.cubeData.vis = some a ∧
          (∑ p ∈ S o fo co, sampleWt cols.weightSpectrum cols.weight p.1 p.2 co ≠ 0 →
            a o fo co = (∑ p ∈ S o fo co, v p.1 p.2 co * sampleWt cols.weightSpectrum cols.weight p.1 p.2 co) /
              ∑ p ∈ S o fo co, sampleWt cols.weightSpectrum cols.weight p.1 p.2 co) ∧
          ((∀ p ∈ S o fo co, sampleWt cols.weightSpectrum cols.weight p.1 p.2 co = 0) → a o fo co = 0) := by
  unfold timeAndChannel at h
  cases hm : mergeFlags n nchan ncorr flagRow cols.flag with
  | error e => rw [hm] at h; cases h
  | ok fr =>
    rw [hm] at h
    simp only at h
    have hz := merged_zeroOne n nchan ncorr flagRow cols.flag h01 fr hm
    cases hrm : rowMapper sentinel n time interval ant1 ant2 fr secs with
    | error e => rw [hrm] at h; cases h
    | ok rm =>
      rw [hrm] at h
      simp only at h
      obtain ⟨cube, hcube, hmain⟩ := rowChan_main sqrt nchan ncorr bin cols h32 hsent hz hb hrm
      rw [hcube] at h
      simp only [Except.ok.injEq] at h
      subst h
      simp only
      refine ⟨fun o fo co => usedSamples cols.flag
        (binSamples n nchan rm.map fr (channelMapper nchan bin).1 o fo) co, ?_, ?_⟩
      · intro o ho fo hfo co hco
        obtain ⟨_, hne, _⟩ := hmain o ho fo hfo co hco _ rfl _ rfl _ rfl
        exact ⟨hne, fun p hp => used_mem hb hp⟩
      · intro v
        obtain ⟨cube', hcube', hmain'⟩ :=
          rowChan_main sqrt nchan ncorr bin { cols with vis := some v } h32 hsent hz hb hrm
        refine ⟨_, by unfold timeAndChannel; simp only [hm, hrm, hcube']; rfl, rfl, rfl, ?_⟩
        intro o ho fo hfo co hco
        obtain ⟨_, _, hvis, _⟩ := hmain' o ho fo hfo co hco _ rfl _ rfl _ rfl
        obtain ⟨a, ha, e1, e2⟩ := hvis v rfl
        exact ⟨a, ha, e1, e2⟩

variable (sqrt : K → K) (junk : Nat → Int)
    (sentinel : ℚ) (n nchan ncorr : Nat) (time interval : Nat → ℚ) (ant1 ant2 : Nat → Int)
    (flagRow : Option (Nat → Nat)) (rowCols : RowCols K)
    (chanFreq chanWidth effectiveBw resolution : Option (Nat → K)) (cols : CubeCols K)
    (secs : ℚ) (bin : Nat) (out : AverageOutput K)
    (h32 : ∀ r < n, IsInt32 (ant1 r)) (hsent : ∀ r < n, time r < sentinel)
    (h01 : ZeroOne n flagRow) (hb : 1 ≤ bin)
    (h : timeAndChannel sqrt junk sentinel n nchan ncorr time interval ant1 ant2 flagRow rowCols
      chanFreq chanWidth effectiveBw resolution cols secs bin = .ok out)
include h32 hsent h01 hb h

/-- C169. Averaging is linear in the visibilities, bin by bin: if in the samples of one output bin the visibilities `u` are
`a v + b w`, the average of `u` in that bin is the same combination of those of `v` and `w`. Weights add up to zero only if all
are zero (weights are not negative). -/
theorem C169_linear (v w u : Nat → Nat → Nat → K)
    (hpos : ∀ co < ncorr, ∀ S : Finset (Nat × Nat),
      ∑ p ∈ S, sampleWt cols.weightSpectrum cols.weight p.1 p.2 co = 0 →
        ∀ p ∈ S, sampleWt cols.weightSpectrum cols.weight p.1 p.2 co = 0)
    (avg : (Nat → Nat → Nat → K) → Except PyErr (AverageOutput K))
    (havg : avg = fun x => timeAndChannel sqrt junk sentinel n nchan ncorr time interval ant1 ant2 flagRow rowCols
      chanFreq chanWidth effectiveBw resolution { cols with vis := some x } secs bin) :
    ∃ ov ow ou, avg v = .ok ov ∧ avg w = .ok ow ∧ avg u = .ok ou ∧
      ∀ o < out.rows.outRows, ∀ fo < out.outChans, ∀ co < ncorr, ∀ a b : K,
        (∀ r < n, ∀ f < nchan, out.rows.map r = o → f / bin = fo → u r f co = a * v r f co + b * w r f co) →
        ∃ x y z, ov.cubeData.vis = some x ∧ ow.cubeData.vis = some y ∧ ou.cubeData.vis = some z ∧
          z o fo co = a * x o fo co + b * y o fo co := by
  obtain ⟨S, hS, key⟩ := call_vis sqrt junk sentinel n nchan ncorr time interval ant1 ant2 flagRow rowCols
    chanFreq chanWidth effectiveBw resolution cols secs bin out h32 hsent h01 hb h
  obtain ⟨ov, v1, -, -, v2⟩ := key v
  obtain ⟨ow, w1, -, -, w2⟩ := key w
  obtain ⟨ou, u1, -, -, u2⟩ := key u
  subst havg
  refine ⟨ov, ow, ou, v1, w1, u1, fun o ho fo hfo co hco a b hu => ?_⟩
  obtain ⟨x, hx, x1, x0⟩ := v2 o ho fo hfo co hco
  obtain ⟨y, hy, y1, y0⟩ := w2 o ho fo hfo co hco
  obtain ⟨z, hz, z1, z0⟩ := u2 o ho fo hfo co hco
  refine ⟨x, y, z, hx, hy, hz, ?_⟩
  by_cases hw : ∑ p ∈ S o fo co, sampleWt cols.weightSpectrum cols.weight p.1 p.2 co = 0
  · have hall := hpos co hco _ hw
    rw [x0 hall, y0 hall, z0 hall]
    ring
  · rw [x1 hw, y1 hw, z1 hw, ← mul_div_assoc, ← mul_div_assoc, ← add_div, Finset.mul_sum, Finset.mul_sum,
      ← Finset.sum_add_distrib]
    congr 1
    refine Finset.sum_congr rfl fun p hp => ?_
    obtain ⟨p1, p2, p3, p4⟩ := (hS o ho fo hfo co hco).2 p hp
    rw [hu p.1 p1 p.2 p2 p3 p4]
    ring

/-- C169. Visibilities that are the same in all samples of a bin keep their value, if the weights of the samples do not add up
to zero. -/
theorem C169_constant (v : Nat → Nat → Nat → K)
    (hpos : ∀ co < ncorr, ∀ S : Finset (Nat × Nat), S.Nonempty → (∀ p ∈ S, p.1 < n ∧ p.2 < nchan) →
      ∑ p ∈ S, sampleWt cols.weightSpectrum cols.weight p.1 p.2 co ≠ 0) :
    ∃ ov x, timeAndChannel sqrt junk sentinel n nchan ncorr time interval ant1 ant2 flagRow rowCols
      chanFreq chanWidth effectiveBw resolution { cols with vis := some v } secs bin = .ok ov ∧
      (0 < out.rows.outRows → 0 < out.outChans → 0 < ncorr → ov.cubeData.vis = some x) ∧
      ∀ o < out.rows.outRows, ∀ fo < out.outChans, ∀ co < ncorr, ∀ c : K,
        (∀ r < n, ∀ f < nchan, out.rows.map r = o → f / bin = fo → v r f co = c) → x o fo co = c := by
  obtain ⟨S, hS, key⟩ := call_vis sqrt junk sentinel n nchan ncorr time interval ant1 ant2 flagRow rowCols
    chanFreq chanWidth effectiveBw resolution cols secs bin out h32 hsent h01 hb h
  obtain ⟨ov, v1, -, -, v2⟩ := key v
  refine ⟨ov, ov.cubeData.vis.getD fun _ _ _ => 0, v1, fun h1 h2 h3 => ?_, fun o ho fo hfo co hco c hc => ?_⟩
  · obtain ⟨x, hx, _⟩ := v2 0 h1 0 h2 0 h3
    rw [hx]; rfl
  · obtain ⟨x, hx, x1, _⟩ := v2 o ho fo hfo co hco
    obtain ⟨hne, hm⟩ := hS o ho fo hfo co hco
    have hw := hpos co hco _ hne fun p hp => ⟨(hm p hp).1, (hm p hp).2.1⟩
    rw [hx, Option.getD_some, x1 hw, div_eq_iff hw, Finset.mul_sum]
    refine Finset.sum_congr rfl fun p hp => ?_
    obtain ⟨p1, p2, p3, p4⟩ := hm p hp
    rw [hc p.1 p1 p.2 p2 p3 p4]

end

/-- C169. With positive weights each averaged visibility lies in every convex set that has the samples of its bin: within any
disc or half plane around them. -/
theorem C169_convex (sqrt : ℂ → ℂ) (junk : Nat → Int)
    (sentinel : ℚ) (n nchan ncorr : Nat) (time interval : Nat → ℚ) (ant1 ant2 : Nat → Int)
    (flagRow : Option (Nat → Nat)) (rowCols : RowCols ℂ)
    (chanFreq chanWidth effectiveBw resolution : Option (Nat → ℂ)) (cols : CubeCols ℂ)
    (secs : ℚ) (bin : Nat) [DecidableEq ℂ] (out : AverageOutput ℂ)
    (h32 : ∀ r < n, IsInt32 (ant1 r)) (hsent : ∀ r < n, time r < sentinel)
    (h01 : ZeroOne n flagRow) (hb : 1 ≤ bin) (v : Nat → Nat → Nat → ℂ) (hv : cols.vis = some v)
    (hpos : ∀ r < n, ∀ f < nchan, ∀ co < ncorr, ∃ x : ℝ, 0 < x ∧
      sampleWt cols.weightSpectrum cols.weight r f co = (x : ℂ))
    (h : timeAndChannel sqrt junk sentinel n nchan ncorr time interval ant1 ant2 flagRow rowCols
      chanFreq chanWidth effectiveBw resolution cols secs bin = .ok out)
    (o fo co : Nat) (ho : o < out.rows.outRows) (hfo : fo < out.outChans) (hco : co < ncorr)
    (C : Set ℂ) (hC : Convex ℝ C)
    (hin : ∀ r < n, ∀ f < nchan, out.rows.map r = o → f / bin = fo → v r f co ∈ C) :
    ∃ x, out.cubeData.vis = some x ∧ x o fo co ∈ C := by
  obtain ⟨S, hS, key⟩ := call_vis sqrt junk sentinel n nchan ncorr time interval ant1 ant2 flagRow rowCols
    chanFreq chanWidth effectiveBw resolution cols secs bin out h32 hsent h01 hb h
  obtain ⟨out', v1, -, -, v2⟩ := key v
  have : out' = out := by
    have hc : ({ cols with vis := some v } : CubeCols ℂ) = cols := by rw [← hv]
    rw [hc, h] at v1
    exact (Except.ok.inj v1).symm
  subst this
  obtain ⟨x, hx, x1, _⟩ := v2 o ho fo hfo co hco
  obtain ⟨hne, hm⟩ := hS o ho fo hfo co hco
  refine ⟨x, hx, ?_⟩
  have hex : ∀ p : Nat × Nat, ∃ y : ℝ, p ∈ S o fo co →
      0 < y ∧ sampleWt cols.weightSpectrum cols.weight p.1 p.2 co = (y : ℂ) := by
    intro p
    by_cases hp : p ∈ S o fo co
    · obtain ⟨y, hy⟩ := hpos p.1 (hm p hp).1 p.2 (hm p hp).2.1 co hco
      exact ⟨y, fun _ => hy⟩
    · exact ⟨0, fun h => absurd h hp⟩
  choose y hy using hex
  have hsum : ∑ p ∈ S o fo co, sampleWt cols.weightSpectrum cols.weight p.1 p.2 co = ((∑ p ∈ S o fo co, y p : ℝ) : ℂ) := by
    rw [Complex.ofReal_sum]
    exact Finset.sum_congr rfl fun p hp => (hy p hp).2
  have hpos' : 0 < ∑ p ∈ S o fo co, y p := Finset.sum_pos (fun p hp => (hy p hp).1) hne
  have hne0 : ((∑ p ∈ S o fo co, y p : ℝ) : ℂ) ≠ 0 := by exact_mod_cast hpos'.ne'
  rw [x1 (by rw [hsum]; exact hne0), hsum]
  have := hC.centerMass_mem (t := S o fo co) (w := y) (z := fun p => v p.1 p.2 co) (fun p hp => (hy p hp).1.le) hpos'
    (fun p hp => hin p.1 (hm p hp).1 p.2 (hm p hp).2.1 (hm p hp).2.2.1 (hm p hp).2.2.2)
  convert this using 1
  rw [Finset.centerMass, div_eq_inv_mul, Complex.real_smul, Complex.ofReal_inv]
  congr 1
  refine Finset.sum_congr rfl fun p hp => ?_
  rw [(hy p hp).2, Complex.real_smul, mul_comm]

/-- One row with two channels at 2 and 6 in one bin: the average is 4. -/
example : ∃ out : AverageOutput ℚ, timeAndChannel id (fun _ => 0) 1000 1 2 1 (fun _ => 0) (fun _ => 1) (fun _ => 0) (fun _ => 1)
      none ⟨none, none, none, none, none⟩ none none none none
      ⟨none, some fun _ f _ => [2, 6].getD f 0, none, none, none⟩ 1 2 = .ok out ∧
    out.rows.outRows = 1 ∧ out.outChans = 1 ∧ out.cubeData.vis.map (· 0 0 0) = some 4 := by
  have h : (match timeAndChannel (K := ℚ) id (fun _ => 0) 1000 1 2 1 (fun _ => 0) (fun _ => 1) (fun _ => 0) (fun _ => 1)
      none ⟨none, none, none, none, none⟩ none none none none
      ⟨none, some fun _ f _ => [2, 6].getD f 0, none, none, none⟩ 1 2 with
    | .error _ => none
    | .ok out => some (out.rows.outRows, out.outChans, out.cubeData.vis.map (· 0 0 0))) = some (1, 1, some 4) := by
    decide +kernel
  split at h
  · cases h
  · rename_i out e
    simp only [Option.some.injEq, Prod.mk.injEq] at h
    exact ⟨out, e, h.1, h.2.1, h.2.2⟩

end Verif.Averaging
