/-
C195: flagged data do not leak into good data.
-/
import Verif.Averaging.PropsConserve
import Verif.Calibration.CellProps
import Verif.Dft.Model

set_option autoImplicit false

namespace Verif.Averaging

open Finset
open Verif.Calibration (correctVis residualVis Jones Vis ModelVis Solve SameCell Arr5)

/-! ### Specification -/

/-- Two optional columns: both absent, or both given and the same wherever `P` holds. -/
def SameAt {α ι : Type*} (P : ι → Prop) (x y : Option (ι → α)) : Prop :=
  match x, y with
  | none, none => True
  | some a, some b => ∀ i, P i → a i = b i
  | _, _ => False

/-- A row that is not flagged, neither as a row nor in all its samples. -/
def GoodRow (nchan ncorr : Nat) (flagRow : Option (Nat → Nat)) (flag : Option (Nat → Nat → Nat → Nat)) (r : Nat) : Prop :=
  ¬ rowFlagged flagRow r ∧ ∀ fl, flag = some fl → ∃ f < nchan, ∃ c < ncorr, fl r f c = 0

/-- The columns with one entry for each row (and component or correlation) are the same in all good rows. -/
structure SameRows {K : Type*} (n : Nat) (P : Nat → Prop) (x y : RowCols K) : Prop where
  timeCentroid : SameAt (fun r => r < n ∧ P r) x.timeCentroid y.timeCentroid
  exposure : SameAt (fun r => r < n ∧ P r) x.exposure y.exposure
  uvw : SameAt (fun r => r < n ∧ P r) x.uvw y.uvw
  weight : SameAt (fun r => r < n ∧ P r) x.weight y.weight
  sigma : SameAt (fun r => r < n ∧ P r) x.sigma y.sigma

/-- The columns with one entry for each sample are the same in all good samples, the flags everywhere. -/
structure SameSamples {K : Type*} (n nchan ncorr : Nat) (R : Nat → Prop) (P : Nat → Nat → Nat → Prop) (x y : CubeCols K) : Prop where
  flag : x.flag = y.flag
  weight : SameAt (fun r => r < n ∧ R r) x.weight y.weight
  vis : SameAt (fun p : Nat × Nat × Nat => p.1 < n ∧ p.2.1 < nchan ∧ p.2.2 < ncorr ∧ P p.1 p.2.1 p.2.2)
    (x.vis.map fun v p => v p.1 p.2.1 p.2.2) (y.vis.map fun v p => v p.1 p.2.1 p.2.2)
  weightSpectrum : SameAt (fun p : Nat × Nat × Nat => p.1 < n ∧ p.2.1 < nchan ∧ p.2.2 < ncorr ∧ P p.1 p.2.1 p.2.2)
    (x.weightSpectrum.map fun v p => v p.1 p.2.1 p.2.2) (y.weightSpectrum.map fun v p => v p.1 p.2.1 p.2.2)
  sigmaSpectrum : SameAt (fun p : Nat × Nat × Nat => p.1 < n ∧ p.2.1 < nchan ∧ p.2.2 < ncorr ∧ P p.1 p.2.1 p.2.2)
    (x.sigmaSpectrum.map fun v p => v p.1 p.2.1 p.2.2) (y.sigmaSpectrum.map fun v p => v p.1 p.2.1 p.2.2)

/-! ### Lemmas -/

section
variable {K : Type*} [Field K] [DecidableEq K]

private theorem merged_rows (n nchan ncorr : Nat) (flagRow : Option (Nat → Nat))
    (flag : Option (Nat → Nat → Nat → Nat)) (fr : Option (Nat → Nat))
    (h : mergeFlags n nchan ncorr flagRow flag = .ok fr) :
    ∀ r < n, ¬ rowFlagged fr r ↔ GoodRow nchan ncorr flagRow flag r := by
  intro r hr
  unfold GoodRow
  cases flag with
  | none =>
    have : fr = flagRow := by
      cases flagRow with
      | none => rw [(C18_merge_rest n nchan ncorr fun _ => 0).2] at h; cases h; rfl
      | some f => rw [(C18_merge_rest n nchan ncorr f).1] at h; cases h; rfl
    rw [this]
    simp
  | some fl =>
    have hex : (¬ ∀ f < nchan, ∀ c < ncorr, fl r f c ≠ 0) ↔ ∃ f < nchan, ∃ c < ncorr, fl r f c = 0 := by
      push Not
      rfl
    cases flagRow with
    | none =>
      obtain ⟨g, h1, h2⟩ := C18_merge_flag_only n nchan ncorr fl
      rw [h1] at h
      cases h
      simp only [rowFlagged, not_false_eq_true, true_and, Option.some.injEq, forall_eq']
      rw [← hex, not_iff_not]
      constructor
      · intro h0
        exact (h2 r hr).2.1 ((h2 r hr).1.resolve_left h0)
      · intro h0
        have := (h2 r hr).2.2 h0
        omega
    | some g =>
      by_cases hc : ∀ r < n, g r ≠ 0 ↔ ∀ i < nchan, ∀ c < ncorr, fl r i c ≠ 0
      · rw [(C18_merge_both n nchan ncorr g fl).1 hc] at h
        cases h
        simp only [rowFlagged, Option.some.injEq, forall_eq']
        rw [← hex, ← hc r hr]
        tauto
      · rw [(C18_merge_both n nchan ncorr g fl).2 hc] at h
        cases h

omit [DecidableEq K] [Field K] in
private theorem sameAt_cases {α ι : Type*} {P : ι → Prop} {x y : Option (ι → α)} (h : SameAt P x y) :
    (x = none ∧ y = none) ∨ ∃ a b, x = some a ∧ y = some b ∧ ∀ i, P i → a i = b i := by
  unfold SameAt at h
  split at h
  · exact .inl ⟨rfl, rfl⟩
  · exact .inr ⟨_, _, rfl, rfl, h⟩
  · exact h.elim

omit [DecidableEq K] [Field K] in
private theorem sameAt_cases3 {n nchan ncorr : Nat} {P : Nat → Nat → Nat → Prop} {x y : Option (Nat → Nat → Nat → K)}
    (h : SameAt (fun p : Nat × Nat × Nat => p.1 < n ∧ p.2.1 < nchan ∧ p.2.2 < ncorr ∧ P p.1 p.2.1 p.2.2)
      (x.map fun v p => v p.1 p.2.1 p.2.2) (y.map fun v p => v p.1 p.2.1 p.2.2)) :
    (x = none ∧ y = none) ∨ ∃ a b, x = some a ∧ y = some b ∧
      ∀ r < n, ∀ f < nchan, ∀ c < ncorr, P r f c → a r f c = b r f c := by
  cases x <;> cases y
  · exact .inl ⟨rfl, rfl⟩
  · exact h.elim
  · exact h.elim
  · rename_i a b
    exact .inr ⟨a, b, rfl, rfl, fun r hr f hf c hc hP => h (r, f, c) ⟨hr, hf, hc, hP⟩⟩

/-- The samples that are averaged in a bin with a good sample are good. -/
private theorem used_good {n nchan : Nat} {m cm : Nat → Nat} {fr : Option (Nat → Nat)} {flag : Option (Nat → Nat → Nat → Nat)} {o fo c : Nat}
    (h : ∃ r < n, ∃ f < nchan, m r = o ∧ cm f = fo ∧ Good fr flag r f c) :
    ∀ p ∈ usedSamples flag (binSamples n nchan m fr cm o fo) c, p.1 < n ∧ p.2 < nchan ∧ Good fr flag p.1 p.2 c := by
  obtain ⟨r, hr, f, hf, h1, h2, hg⟩ := h
  have hr' : r ∈ fibre n m o := by simp [fibre, hr, h1]
  have hf' : f ∈ fibre nchan cm fo := by simp [fibre, hf, h2]
  have hc : contributors n m fr o = (fibre n m o).filter fun r => ¬ rowFlagged fr r := by
    unfold contributors
    rw [if_neg fun hall => hg.1 (hall r hr')]
  have hmem : (r, f) ∈ binSamples n nchan m fr cm o fo := by
    unfold binSamples
    rw [hc]
    exact mem_product.2 ⟨mem_filter.2 ⟨hr', hg.1⟩, hf'⟩
  intro p hp
  unfold usedSamples at hp
  rw [if_neg fun hall => hg.2 (hall _ hmem)] at hp
  obtain ⟨hp1, hp2⟩ := mem_filter.1 hp
  unfold binSamples at hp1
  rw [hc] at hp1
  obtain ⟨q1, q2⟩ := mem_product.1 hp1
  obtain ⟨q3, q4⟩ := mem_filter.1 q1
  simp only [fibre, mem_filter, mem_range] at q3 q2
  exact ⟨q3.1, q2.1, q4, hp2⟩

private theorem rows_good {n : Nat} {m : Nat → Nat} {fr : Option (Nat → Nat)} {o : Nat}
    (h : ∃ r < n, m r = o ∧ ¬ rowFlagged fr r) : ∀ r ∈ contributors n m fr o, r < n ∧ ¬ rowFlagged fr r := by
  obtain ⟨r, hr, h1, hg⟩ := h
  have hr' : r ∈ fibre n m o := by simp [fibre, hr, h1]
  intro q hq
  unfold contributors at hq
  rw [if_neg fun hall => hg (hall r hr')] at hq
  obtain ⟨q1, q2⟩ := mem_filter.1 hq
  simp only [fibre, mem_filter, mem_range] at q1
  exact ⟨q1.1, q2⟩

private theorem cube_none {sqrt : K → K} {n nchan ncorr : Nat} {rm : RowMapOutput} {fr : Option (Nat → Nat)} {cm : Nat → Nat}
    {nout : Nat} {cols : CubeCols K} {cube : RowChanAverageOutput K}
    (h : rowChanAverage sqrt n nchan ncorr rm fr cm nout cols = .ok cube) :
    (cols.vis = none → cube.vis = none) ∧ (cols.flag = none → cube.flag = none) ∧
      (cols.weightSpectrum = none → cube.weightSpectrum = none) ∧ (cols.sigmaSpectrum = none → cube.sigmaSpectrum = none) := by
  unfold rowChanAverage at h
  simp only at h
  split at h
  · cases h
  · cases h
    refine ⟨fun e => ?_, fun e => ?_, fun e => ?_, fun e => ?_⟩ <;> simp only [e, Option.map_none]

private theorem call_ok {sqrt : K → K} {junk : Nat → Int}
    {sentinel : ℚ} {n nchan ncorr : Nat} {time interval : Nat → ℚ} {ant1 ant2 : Nat → Int}
    {flagRow : Option (Nat → Nat)} {rowCols : RowCols K}
    {chanFreq chanWidth effectiveBw resolution : Option (Nat → K)} {cols : CubeCols K}
    {secs : ℚ} {bin : Nat} {out : AverageOutput K}
    (h32 : ∀ r < n, IsInt32 (ant1 r)) (hsent : ∀ r < n, time r < sentinel)
    (h01 : ZeroOne n flagRow) (hb : 1 ≤ bin)
    (h : timeAndChannel sqrt junk sentinel n nchan ncorr time interval ant1 ant2 flagRow rowCols
      chanFreq chanWidth effectiveBw resolution cols secs bin = .ok out) :
    ∃ fr, mergeFlags n nchan ncorr flagRow cols.flag = .ok fr ∧ ZeroOne n fr ∧
      rowMapper sentinel n time interval ant1 ant2 fr secs = .ok out.rows ∧
      out.rowData = rowAverage sqrt junk n out.rows fr ant1 ant2 rowCols ncorr ∧ out.outChans = (channelMapper nchan bin).2 ∧
      rowChanAverage sqrt n nchan ncorr out.rows fr (channelMapper nchan bin).1 (channelMapper nchan bin).2 cols =
        .ok out.cubeData ∧
      ∀ rowCols' cols', cols'.flag = cols.flag → ∃ out', timeAndChannel sqrt junk sentinel n nchan ncorr time interval ant1 ant2
          flagRow rowCols' chanFreq chanWidth effectiveBw resolution cols' secs bin = .ok out' ∧ out'.rows = out.rows ∧
        out'.outChans = out.outChans ∧
        out'.rowData = rowAverage sqrt junk n out.rows fr ant1 ant2 rowCols' ncorr ∧
        rowChanAverage sqrt n nchan ncorr out.rows fr (channelMapper nchan bin).1 (channelMapper nchan bin).2 cols' =
          .ok out'.cubeData := by
  unfold timeAndChannel at h
  cases hm : mergeFlags n nchan ncorr flagRow cols.flag with
  | error e => rw [hm] at h; cases h
  | ok fr =>
    rw [hm] at h
    simp only at h
    have hz := (merged_good n nchan ncorr flagRow cols.flag h01 fr hm).1
    cases hrm : rowMapper sentinel n time interval ant1 ant2 fr secs with
    | error e => rw [hrm] at h; cases h
    | ok rm =>
      rw [hrm] at h
      simp only at h
      obtain ⟨cube, hcube, -⟩ := rowChan_main sqrt nchan ncorr bin cols h32 hsent hz hb hrm
      rw [hcube] at h
      simp only [Except.ok.injEq] at h
      subst h
      refine ⟨fr, rfl, hz, hrm, rfl, rfl, hcube, fun rowCols' cols' hf => ?_⟩
      obtain ⟨cube', hcube', -⟩ := rowChan_main sqrt nchan ncorr bin cols' h32 hsent hz hb hrm
      have e : timeAndChannel sqrt junk sentinel n nchan ncorr time interval ant1 ant2 flagRow rowCols' chanFreq chanWidth
          effectiveBw resolution cols' secs bin = .ok
            { rows := rm, rowData := rowAverage sqrt junk n rm fr ant1 ant2 rowCols' ncorr
              chanData := chanAverage nchan (channelMapper nchan bin).1 chanFreq chanWidth effectiveBw resolution
              cubeData := cube', outChans := (channelMapper nchan bin).2 } := by
        unfold timeAndChannel
        rw [hf]
        simp only [hm, hrm, hcube']
      exact ⟨_, e, rfl, rfl, rfl, hcube'⟩

variable (sqrt : K → K) (junk : Nat → Int)
    (sentinel : ℚ) (n nchan ncorr : Nat) (time interval : Nat → ℚ) (ant1 ant2 : Nat → Int)
    (flagRow : Option (Nat → Nat)) (rowCols rowCols' : RowCols K)
    (chanFreq chanWidth effectiveBw resolution : Option (Nat → K)) (cols cols' : CubeCols K)
    (secs : ℚ) (bin : Nat) (out : AverageOutput K)
    (h32 : ∀ r < n, IsInt32 (ant1 r)) (hsent : ∀ r < n, time r < sentinel)
    (h01 : ZeroOne n flagRow) (hb : 1 ≤ bin)
    (h : timeAndChannel sqrt junk sentinel n nchan ncorr time interval ant1 ant2 flagRow rowCols
      chanFreq chanWidth effectiveBw resolution cols secs bin = .ok out)
include h32 hsent h01 hb h

/-- **C195**: what is stored in flagged rows does not change the averages of an output row that has a row that is not flagged:
the numbers of rows and channels, uvw, time centroid, exposure, weight and (weights adding up to zero only if they are all
zero) sigma are the same. -/
theorem C195_rows (hrows : SameRows n (GoodRow nchan ncorr flagRow cols.flag) rowCols rowCols') (hflag : cols'.flag = cols.flag)
    (hpos : ∀ c < ncorr, ∀ S : Finset Nat, (∀ r ∈ S, r < n ∧ GoodRow nchan ncorr flagRow cols.flag r) →
      ∑ r ∈ S, rowWt rowCols.weight r c = 0 → ∀ r ∈ S, rowWt rowCols.weight r c = 0) :
    ∃ out', timeAndChannel sqrt junk sentinel n nchan ncorr time interval ant1 ant2 flagRow rowCols'
        chanFreq chanWidth effectiveBw resolution cols' secs bin = .ok out' ∧ out'.rows = out.rows ∧ out'.outChans = out.outChans ∧
      ∀ o < out.rows.outRows, (∃ r < n, out.rows.map r = o ∧ GoodRow nchan ncorr flagRow cols.flag r) →
        out'.rowData.timeCentroid.map (· o) = out.rowData.timeCentroid.map (· o) ∧
        out'.rowData.exposure.map (· o) = out.rowData.exposure.map (· o) ∧
        (∀ k < 3, out'.rowData.uvw.map (· o k) = out.rowData.uvw.map (· o k)) ∧
        (∀ c < ncorr, out'.rowData.weight.map (· o c) = out.rowData.weight.map (· o c)) ∧
        (∀ c < ncorr, out'.rowData.sigma.map (· o c) = out.rowData.sigma.map (· o c)) := by
  obtain ⟨fr, hm, hz, hrm, hrd, -, -, hcall⟩ := call_ok h32 hsent h01 hb h
  obtain ⟨out', ho', hr', hch, hrd', -⟩ := hcall rowCols' cols' hflag
  refine ⟨out', ho', hr', hch, fun o ho ⟨r0, hr0, hmap, hgood⟩ => ?_⟩
  have hmr := merged_rows n nchan ncorr flagRow cols.flag fr hm
  have hC := rows_good (m := out.rows.map) (fr := fr) ⟨r0, hr0, hmap, (hmr r0 hr0).2 hgood⟩
  have hC' : ∀ r ∈ contributors n out.rows.map fr o, r < n ∧ GoodRow nchan ncorr flagRow cols.flag r :=
    fun r hr => ⟨(hC r hr).1, (hmr r (hC r hr).1).1 (hC r hr).2⟩
  obtain ⟨-, u1, t1, e1, w1, -⟩ := C11_row_average sqrt junk rowCols ncorr h32 hsent hz hrm _ hrd o ho _ rfl
  obtain ⟨-, u2, t2, e2, w2, -⟩ := C11_row_average sqrt junk rowCols' ncorr h32 hsent hz hrm _ hrd' o ho _ rfl
  have hw : ∀ r ∈ contributors n out.rows.map fr o, ∀ c, rowWt rowCols'.weight r c = rowWt rowCols.weight r c := by
    intro r hr c
    rcases sameAt_cases hrows.weight with ⟨a, b⟩ | ⟨a, b, ha, hb', hab⟩
    · rw [a, b]
    · rw [ha, hb']
      simp only [rowWt]
      rw [hab r (hC' r hr)]
  refine ⟨?_, ?_, fun k hk => ?_, fun c hc => ?_, fun c hc => ?_⟩
  · rcases sameAt_cases hrows.timeCentroid with ⟨a, b⟩ | ⟨a, b, ha, hb', hab⟩
    · rw [hrd, hrd']
      simp only [rowAverage, a, b, Option.map_none]
    · obtain ⟨x, hx, ex⟩ := t1 a ha
      obtain ⟨y, hy, ey⟩ := t2 b hb'
      rw [hx, hy, Option.map_some, Option.map_some, ex, ey, sum_congr rfl fun r hr => hab r (hC' r hr)]
  · rcases sameAt_cases hrows.exposure with ⟨a, b⟩ | ⟨a, b, ha, hb', hab⟩
    · rw [hrd, hrd']
      simp only [rowAverage, a, b, Option.map_none]
    · obtain ⟨x, hx, ex⟩ := e1 a ha
      obtain ⟨y, hy, ey⟩ := e2 b hb'
      rw [hx, hy, Option.map_some, Option.map_some, ex, ey, sum_congr rfl fun r hr => hab r (hC' r hr)]
  · rcases sameAt_cases hrows.uvw with ⟨a, b⟩ | ⟨a, b, ha, hb', hab⟩
    · rw [hrd, hrd']
      simp only [rowAverage, a, b, Option.map_none]
    · obtain ⟨x, hx, ex⟩ := u1 a ha
      obtain ⟨y, hy, ey⟩ := u2 b hb'
      rw [hx, hy, Option.map_some, Option.map_some, ex k hk, ey k hk,
        sum_congr rfl fun r hr => congrFun (hab r (hC' r hr)) k]
  · rcases sameAt_cases hrows.weight with ⟨a, b⟩ | ⟨a, b, ha, hb', hab⟩
    · rw [hrd, hrd']
      simp only [rowAverage, a, b, Option.map_none]
    · obtain ⟨x, hx, ex⟩ := w1 a ha
      obtain ⟨y, hy, ey⟩ := w2 b hb'
      rw [hx, hy, Option.map_some, Option.map_some, ex c hc, ey c hc,
        sum_congr rfl fun r hr => congrFun (hab r (hC' r hr)) c]
  · rcases sameAt_cases hrows.sigma with ⟨a, b⟩ | ⟨a, b, ha, hb', hab⟩
    · rw [hrd, hrd']
      simp only [rowAverage, a, b, Option.map_none]
    · obtain ⟨x, hx, ex1, ex0⟩ := C13_sigma sqrt junk rowCols ncorr h32 hsent hz hrm a ha o c ho hc _ rfl
      obtain ⟨y, hy, ey1, ey0⟩ := C13_sigma sqrt junk rowCols' ncorr h32 hsent hz hrm b hb' o c ho hc _ rfl
      rw [← hrd] at hx
      rw [← hrd'] at hy
      rw [hx, hy, Option.map_some, Option.map_some]
      rw [sum_congr rfl fun r hr => hw r hr c] at ey1
      by_cases h0 : ∑ r ∈ contributors n out.rows.map fr o, rowWt rowCols.weight r c = 0
      · have hall := hpos c hc _ hC' h0
        rw [ex0 hall, ey0 fun r hr => (hw r hr c).trans (hall r hr)]
      · rw [ex1 h0, ey1 h0]
        congr 3
        refine sum_congr rfl fun r hr => ?_
        rw [hw r hr c, hab r (hC' r hr)]

/-- **C195**: what is stored in flagged samples does not change an output sample that has a sample that is not flagged: flag,
weight and (weights adding up to zero only if they are all zero) visibility and sigma are the same. -/
theorem C195_samples (hsame : SameSamples n nchan ncorr (GoodRow nchan ncorr flagRow cols.flag) (Good flagRow cols.flag) cols cols')
    (hpos : ∀ c < ncorr, ∀ S : Finset (Nat × Nat), (∀ p ∈ S, p.1 < n ∧ p.2 < nchan ∧ Good flagRow cols.flag p.1 p.2 c) →
      ∑ p ∈ S, sampleWt cols.weightSpectrum cols.weight p.1 p.2 c = 0 →
        ∀ p ∈ S, sampleWt cols.weightSpectrum cols.weight p.1 p.2 c = 0) :
    ∃ out', timeAndChannel sqrt junk sentinel n nchan ncorr time interval ant1 ant2 flagRow rowCols'
        chanFreq chanWidth effectiveBw resolution cols' secs bin = .ok out' ∧ out'.rows = out.rows ∧ out'.outChans = out.outChans ∧
      ∀ o < out.rows.outRows, ∀ fo < out.outChans, ∀ c < ncorr,
        (∃ r < n, ∃ f < nchan, out.rows.map r = o ∧ f / bin = fo ∧ Good flagRow cols.flag r f c) →
        out'.cubeData.flag.map (· o fo c) = out.cubeData.flag.map (· o fo c) ∧
        out'.cubeData.weightSpectrum.map (· o fo c) = out.cubeData.weightSpectrum.map (· o fo c) ∧
        out'.cubeData.vis.map (· o fo c) = out.cubeData.vis.map (· o fo c) ∧
        out'.cubeData.sigmaSpectrum.map (· o fo c) = out.cubeData.sigmaSpectrum.map (· o fo c) := by
  obtain ⟨fr, hm, hz, hrm, -, hoc, hcube, hcall⟩ := call_ok h32 hsent h01 hb h
  obtain ⟨out', ho', hr', hch, -, hcube'⟩ := hcall rowCols' cols' hsame.flag.symm
  refine ⟨out', ho', hr', hch, fun o ho fo hfo c hc ⟨r0, hr0, f0, hf0, hmap, hdiv, hgood⟩ => ?_⟩
  have hmg := (merged_good n nchan ncorr flagRow cols.flag h01 fr hm).2
  have hmr := merged_rows n nchan ncorr flagRow cols.flag fr hm
  have hS := used_good (m := out.rows.map) (cm := (channelMapper nchan bin).1) (fr := fr) (flag := cols.flag) (c := c) (o := o) (fo := fo)
    ⟨r0, hr0, f0, hf0, hmap, by rw [(C01_channel_map nchan bin hb).1 f0 hf0]; exact hdiv, (hmg r0 hr0 f0 hf0 c hc).2 hgood⟩
  have hS' : ∀ p ∈ usedSamples cols.flag (binSamples n nchan out.rows.map fr (channelMapper nchan bin).1 o fo) c,
      p.1 < n ∧ p.2 < nchan ∧ Good flagRow cols.flag p.1 p.2 c :=
    fun p hp => ⟨(hS p hp).1, (hS p hp).2.1, (hmg p.1 (hS p hp).1 p.2 (hS p hp).2.1 c hc).1 (hS p hp).2.2⟩
  have hR' : ∀ p ∈ usedSamples cols.flag (binSamples n nchan out.rows.map fr (channelMapper nchan bin).1 o fo) c,
      GoodRow nchan ncorr flagRow cols.flag p.1 := fun p hp => (hmr p.1 (hS p hp).1).1 (hS p hp).2.2.1
  obtain ⟨cube, hc1, key⟩ := rowChan_main sqrt nchan ncorr bin cols h32 hsent hz hb hrm
  obtain rfl : cube = out.cubeData := Except.ok.inj (hc1.symm.trans hcube)
  obtain ⟨cube', hc2, key'⟩ := rowChan_main sqrt nchan ncorr bin cols' h32 hsent hz hb hrm
  obtain rfl : cube' = out'.cubeData := Except.ok.inj (hc2.symm.trans hcube')
  obtain ⟨-, -, v1, f1, w1, s1⟩ := key o ho fo (hoc ▸ hfo) c hc _ rfl _ rfl _ rfl
  obtain ⟨-, -, v2, f2, w2, s2⟩ := key' o ho fo (hoc ▸ hfo) c hc _ rfl _ rfl _ rfl
  obtain ⟨nv, nf, nw, ns⟩ := cube_none hcube
  obtain ⟨nv', nf', nw', ns'⟩ := cube_none hcube'
  rw [← hsame.flag] at v2 w2 s2
  generalize hB : binSamples n nchan out.rows.map fr (channelMapper nchan bin).1 o fo = B at *
  generalize hU : usedSamples cols.flag B c = S at *
  have hw : ∀ p ∈ S, sampleWt cols'.weightSpectrum cols'.weight p.1 p.2 c = sampleWt cols.weightSpectrum cols.weight p.1 p.2 c := by
    intro p hp
    obtain ⟨q1, q2, q3⟩ := hS' p hp
    rcases sameAt_cases3 hsame.weightSpectrum with ⟨a, b⟩ | ⟨a, b, ha, hb', hab⟩
    · rcases sameAt_cases hsame.weight with ⟨a', b'⟩ | ⟨a', b', ha', hb', hab'⟩
      · rw [a, b, a', b']
      · rw [a, b, ha', hb']
        simp only [sampleWt]
        rw [hab' p.1 ⟨q1, hR' p hp⟩]
    · rw [ha, hb']
      simp only [sampleWt]
      rw [hab p.1 q1 p.2 q2 c hc q3]
  refine ⟨?_, ?_, ?_, ?_⟩
  · cases hfl : cols.flag with
    | none => rw [nf hfl, nf' (hsame.flag ▸ hfl)]
    | some fl =>
      obtain ⟨x, hx, x1, x2⟩ := f1 fl hfl
      obtain ⟨y, hy, y1, y2⟩ := f2 fl (hsame.flag ▸ hfl)
      rw [hx, hy, Option.map_some, Option.map_some]
      congr 1
      rcases x1 with x1 | x1
      · rcases y1 with y1 | y1
        · rw [x1, y1]
        · exact absurd (x2.2 (y2.1 y1)) (by omega)
      · rw [x1, y2.2 (x2.1 x1)]
  · rcases sameAt_cases3 hsame.weightSpectrum with ⟨a, b⟩ | ⟨a, b, ha, hb', hab⟩
    · rw [nw a, nw' b]
    · obtain ⟨x, hx, ex⟩ := w1 a ha
      obtain ⟨y, hy, ey⟩ := w2 b hb'
      rw [hx, hy, Option.map_some, Option.map_some, ex, ey]
      congr 1
      refine sum_congr rfl fun p hp => ?_
      obtain ⟨q1, q2, q3⟩ := hS' p hp
      exact (hab p.1 q1 p.2 q2 c hc q3).symm
  · rcases sameAt_cases3 hsame.vis with ⟨a, b⟩ | ⟨a, b, ha, hb', hab⟩
    · rw [nv a, nv' b]
    · obtain ⟨x, hx, ex1, ex0⟩ := v1 a ha
      obtain ⟨y, hy, ey1, ey0⟩ := v2 b hb'
      rw [hx, hy, Option.map_some, Option.map_some]
      rw [sum_congr rfl hw] at ey1
      congr 1
      by_cases h0 : ∑ p ∈ S, sampleWt cols.weightSpectrum cols.weight p.1 p.2 c = 0
      · have hall := hpos c hc _ hS' h0
        rw [ex0 hall, ey0 fun p hp => (hw p hp).trans (hall p hp)]
      · rw [ex1 h0, ey1 h0]
        congr 1
        refine sum_congr rfl fun p hp => ?_
        obtain ⟨q1, q2, q3⟩ := hS' p hp
        rw [hw p hp, hab p.1 q1 p.2 q2 c hc q3]
  · rcases sameAt_cases3 hsame.sigmaSpectrum with ⟨a, b⟩ | ⟨a, b, ha, hb', hab⟩
    · rw [ns a, ns' b]
    · obtain ⟨x, hx, ex1, ex0⟩ := s1 a ha
      obtain ⟨y, hy, ey1, ey0⟩ := s2 b hb'
      rw [hx, hy, Option.map_some, Option.map_some]
      rw [sum_congr rfl hw] at ey1
      congr 1
      by_cases h0 : ∑ p ∈ S, sampleWt cols.weightSpectrum cols.weight p.1 p.2 c = 0
      · have hall := hpos c hc _ hS' h0
        rw [ex0 hall, ey0 fun p hp => (hw p hp).trans (hall p hp)]
      · rw [ex1 h0, ey1 h0]
        congr 2
        refine sum_congr rfl fun p hp => ?_
        obtain ⟨q1, q2, q3⟩ := hS' p hp
        rw [hw p hp, hab p.1 q1 p.2 q2 c hc q3]

end

/-! ### Calibration and imaging -/

private theorem binLoop_congr {V : Type*} (ntim : Nat) (lo cnt : Nat → Nat) (nchan : Nat) (f g : Nat → Nat → Nat → V → V)
    (init : Nat → Nat → V) (h : ∀ t row, ∀ nu < nchan, ∀ x, f t row nu x = g t row nu x) :
    Verif.Calibration.binLoop ntim lo cnt nchan f init = Verif.Calibration.binLoop ntim lo cnt nchan g init := by
  unfold Verif.Calibration.binLoop
  refine forRange_congr fun t _ x => forRange_congr fun k _ x => forRange_congr fun nu hnu x => ?_
  rw [h t _ nu hnu]

/-- Two arrays of visibilities of the same kind that are the same in every row and channel that is not flagged. -/
def SameVis {K : Type*} (nchan : Nat) (flagged : Nat → Nat → Bool) : Vis K → Vis K → Prop
  | .three v, .three w => ∀ r, ∀ nu < nchan, flagged r nu = false → v r nu = w r nu
  | .four v, .four w => ∀ r, ∀ nu < nchan, flagged r nu = false → v r nu = w r nu
  | _, _ => False

/-- Two models of the same kind that are the same in every row and channel that is not flagged. -/
def SameModel {K : Type*} (nchan : Nat) (flagged : Nat → Nat → Bool) : ModelVis K → ModelVis K → Prop
  | .four v, .four w => ∀ r, ∀ nu < nchan, flagged r nu = false → v r nu = w r nu
  | .five v, .five w => ∀ r, ∀ nu < nchan, flagged r nu = false → v r nu = w r nu
  | _, _ => False

/-- **C195**: `correct_vis` gives the same whatever is stored in flagged visibilities. -/
theorem C195_correct {K : Type*} [Field K] [StarRing K] (nidx ntim : Nat) (idx cnt ant1 ant2 : Nat → Nat) (nchan ndir ncorr : Nat)
    (jones : Jones K) (vis vis' : Vis K) (flagged : Nat → Nat → Bool) (h : SameVis nchan flagged vis vis') :
    correctVis nidx ntim idx cnt ant1 ant2 nchan ndir ncorr jones vis' flagged =
      correctVis nidx ntim idx cnt ant1 ant2 nchan ndir ncorr jones vis flagged := by
  cases vis <;> cases vis' <;> first | exact h.elim | skip
  all_goals
    unfold correctVis
    cases jones
  all_goals simp only [Jones.ndim, Vis.ndim]
  all_goals
    generalize Verif.Calibration.checkType _ _ _ = ct
    generalize Verif.Calibration.shiftIdx _ _ = si
    cases ct
    · rfl
    cases si
    · rfl
    by_cases hd : 1 < ndir
    · simp only [if_pos hd]
    simp only [if_neg hd]
    refine congrArg _ (congrArg _ (binLoop_congr _ _ _ _ _ _ _ fun t row nu hnu x => ?_))
    by_cases hf : flagged row nu = true
    · rw [if_pos hf, if_pos hf]
    · rw [if_neg hf, if_neg hf, h row nu hnu (by simpa using hf)]

/-- **C195**: `residual_vis` gives the same whatever is stored in flagged visibilities and models. -/
theorem C195_residual {K : Type*} [Field K] [StarRing K] (ntim : Nat) (idx cnt ant1 ant2 : Nat → Nat) (nchan ndir : Nat)
    (jones : Jones K) (vis vis' : Vis K) (flagged : Nat → Nat → Bool) (model model' : ModelVis K)
    (h : SameVis nchan flagged vis vis') (hm : SameModel nchan flagged model model') :
    residualVis ntim idx cnt ant1 ant2 nchan ndir jones vis' flagged model' =
      residualVis ntim idx cnt ant1 ant2 nchan ndir jones vis flagged model := by
  cases vis <;> cases vis' <;> first | exact h.elim | skip
  all_goals
    cases model <;> cases model' <;> first | exact hm.elim | skip
  all_goals
    unfold residualVis
    cases jones
  all_goals simp only [Jones.ndim, Vis.ndim]
  all_goals
    generalize Verif.Calibration.checkType _ _ _ = ct
    generalize Verif.Calibration.shiftIdx _ _ = si
    cases ct
    · rfl
    cases si
    · rfl
    simp only
    refine congrArg _ (congrArg _ (binLoop_congr _ _ _ _ _ _ _ fun t row nu hnu x => ?_))
    by_cases hf : flagged row nu = true
    · rw [if_pos hf, if_pos hf]
    · rw [if_neg hf, if_neg hf, h row nu hnu (by simpa using hf), hm row nu hnu (by simpa using hf)]

/-- **C195**: phase-only calibration finds the same gains in as many iterations whatever is stored in flagged visibilities,
models and weights. -/
theorem C195_gains (p : Solve) (m : Nat) (hp : p.Binned m) (vis : Nat → Nat → Nat → ℂ) (model : Nat → Nat → Nat → Nat → ℂ)
    (weight : Nat → Nat → Nat → ℝ) (h : ∀ r nu, p.flagged r nu = false → vis r nu = p.vis r nu ∧ model r nu = p.model r nu ∧
      weight r nu = p.weight r nu) (tol : ℝ) (maxiter k : Nat) (g jhr : Arr5 ℂ) (jhj : Arr5 ℝ)
    (h1 : p.run tol maxiter = .ok (g, jhj, jhr, k)) :
    ∃ g' jhj' jhr', ({ p with vis := vis, model := model, weight := weight } : Solve).run tol maxiter = .ok (g', jhj', jhr', k) ∧
      ∀ t < p.ext.ntim, ∀ a, ∀ nu < p.ext.nchan, ∀ s < p.ext.ndir, ∀ c < p.ext.ncorr,
        g' t a nu s c = g t a nu s c ∧ jhj' t a nu s c = jhj t a nu s c ∧ jhr' t a nu s c = jhr t a nu s c :=
  Verif.Calibration.C182_order p { p with vis := vis, model := model, weight := weight } m m id id id (fun _ _ => id) tol maxiter k
    g jhr jhj hp ⟨hp.first, hp.bins⟩ rfl (Set.bijOn_id _) (Set.bijOn_id _) (Set.bijOn_id _)
    (fun _ _ nu _ c _ =>
      { rows := Set.bijOn_id _
        ant1 := fun _ _ => rfl
        ant2 := fun _ _ => rfl
        vis := fun r hr => congrFun (h r nu hr.2.2).1 c
        model := fun r hr s _ => congrFun (congrFun (h r nu hr.2.2).2.1 s) c
        weight := fun r hr => congrFun (h r nu hr.2.2).2.2 c
        gains := fun _ _ _ => rfl }) h1

/-- **C195**: `vis_to_im` gives the same image whatever is stored in visibilities of rows and channels in which a correlation
is flagged. -/
theorem C195_image (nrow nsrc nchan ncorr : Nat) (vis vis' : Nat → Nat → Nat → ℂ) (uvw : Nat → ℝ × ℝ × ℝ) (lm : Nat → ℝ × ℝ)
    (freq : Nat → ℝ) (flags : Nat → Nat → Nat → Bool) (convention : String)
    (h : ∀ r < nrow, ∀ nu < nchan, (∀ c < ncorr, flags r nu c = false) → ∀ c < ncorr, vis r nu c = vis' r nu c) :
    Verif.Dft.visToIm nrow nsrc nchan ncorr vis' uvw lm freq flags convention =
      Verif.Dft.visToIm nrow nsrc nchan ncorr vis uvw lm freq flags convention := by
  unfold Verif.Dft.visToIm
  split
  · rfl
  refine congrArg _ (forRange_congr fun s _ x => forRange_congr fun r hr x => forRange_congr fun nu hnu x => ?_)
  unfold Verif.Dft.bwdCorrs
  dsimp only
  split
  · rfl
  · rename_i hf
    have hf' : ∀ c < ncorr, flags r nu c = false := by
      intro c hc
      by_contra hn
      exact hf (List.any_eq_true.2 ⟨c, List.mem_range.2 hc, by simpa using hn⟩)
    refine forRange_congr fun c hc x => ?_
    rw [h r hr nu hnu hf' c hc]

/-- One row with two channels in one bin, of which the second is flagged: its visibility may be 6 or 100, the average is that of the
first. The columns meet the hypotheses of the theorem. -/
example : (∀ x ∈ [6, 100], ∃ out : AverageOutput ℚ, timeAndChannel id (fun _ => 0) 1000 1 2 1 (fun _ => 0) (fun _ => 1) (fun _ => 0)
      (fun _ => 1) none ⟨none, none, none, none, none⟩ none none none none
      ⟨none, some fun _ f _ => [2, x].getD f 0, some fun _ f _ => f, none, none⟩ 1 2 = .ok out ∧
    out.rows.outRows = 1 ∧ out.outChans = 1 ∧ out.cubeData.vis.map (· 0 0 0) = some 2 ∧
      out.cubeData.flag.map (· 0 0 0) = some 0) ∧
    SameSamples (K := ℚ) 1 2 1 (GoodRow 2 1 none (some fun _ f _ => f)) (Good none (some fun _ f _ => f))
      ⟨none, some fun _ f _ => [2, 6].getD f 0, some fun _ f _ => f, none, none⟩
      ⟨none, some fun _ f _ => [2, 100].getD f 0, some fun _ f _ => f, none, none⟩ ∧
    Good none (some fun _ f _ => f) 0 0 0 := by
  have h : ∀ x ∈ [6, 100], (match timeAndChannel (K := ℚ) id (fun _ => 0) 1000 1 2 1 (fun _ => 0) (fun _ => 1) (fun _ => 0) (fun _ => 1)
      none ⟨none, none, none, none, none⟩ none none none none
      ⟨none, some fun _ f _ => [2, x].getD f 0, some fun _ f _ => f, none, none⟩ 1 2 with
    | .error _ => none
    | .ok out => some (out.rows.outRows, out.outChans, out.cubeData.vis.map (· 0 0 0), out.cubeData.flag.map (· 0 0 0))) =
      some (1, 1, some 2, some 0) := by
    decide +kernel
  refine ⟨fun x hx => ?_, ⟨rfl, trivial, ?_, trivial, trivial⟩, by simp [Good, rowFlagged, sampleFlagged]⟩
  · have hx' := h x hx
    split at hx'
    · cases hx'
    · rename_i out e
      simp only [Option.some.injEq, Prod.mk.injEq] at hx'
      exact ⟨out, e, hx'.1, hx'.2.1, hx'.2.2.1, hx'.2.2.2⟩
  · rintro ⟨r, f, c⟩ ⟨-, -, -, hg⟩
    have : f = 0 := by simpa [Good, rowFlagged, sampleFlagged] using hg
    subst this
    rfl

/-- One row of two channels, of which the second is flagged. -/
example : SameVis 2 (fun _ nu => nu == 1) (.three fun _ nu _ => (nu : ℂ)) (.three fun _ nu _ => 5 * (nu : ℂ)) := by
  intro r nu hnu hf
  obtain rfl : nu = 0 := by
    have : nu ≠ 1 := by simpa using hf
    omega
  simp

end Verif.Averaging
