/-
C193: averaging and calibration can be exchanged where the gains do not change.
-/
import Verif.Averaging.PropsConvex
import Verif.Calibration.Props
import Mathlib.Analysis.Normed.Module.Convex

set_option autoImplicit false

namespace Verif.Averaging

open Verif.Calibration (corruptVis correctVis InBin Disjoint' Jones Vis ModelVis)

/-! ### Specification -/

/-- The gains `j`, given for the solution intervals `T` of the rows, are the same in all the rows and channels that are averaged
into one bin, for each antenna. -/
def GainsConstant (n nchan bin : Nat) (map T : Nat → Nat) (j : Nat → Nat → Nat → Nat → Nat → ℂ) (co : Nat) : Prop :=
  ∀ r < n, ∀ q < n, map r = map q → ∀ f < nchan, ∀ g < nchan, f / bin = g / bin →
    ∀ a, j (T r) a f 0 co = j (T q) a g 0 co

/-- Every row is in its solution interval. -/
def InIntervals (n ntim m : Nat) (idx cnt T : Nat → Nat) : Prop :=
  ∀ r < n, T r < ntim ∧ InBin idx cnt (T r) (m + r)

/-! ### Lemmas -/

private theorem rows_of_ok {K : Type*} [Field K] [DecidableEq K] (sqrt : K → K) (junk : Nat → Int)
    (sentinel : ℚ) (n nchan ncorr : Nat) (time interval : Nat → ℚ) (ant1 ant2 : Nat → Int)
    (flagRow : Option (Nat → Nat)) (rowCols : RowCols K)
    (chanFreq chanWidth effectiveBw resolution : Option (Nat → K)) (cols : CubeCols K)
    (secs : ℚ) (bin : Nat) (out : AverageOutput K)
    (h : timeAndChannel sqrt junk sentinel n nchan ncorr time interval ant1 ant2 flagRow rowCols
      chanFreq chanWidth effectiveBw resolution cols secs bin = .ok out) :
    ∃ fr, rowMapper sentinel n time interval ant1 ant2 fr secs = .ok out.rows := by
  unfold timeAndChannel at h
  cases hm : mergeFlags n nchan ncorr flagRow cols.flag with
  | error e => rw [hm] at h; cases h
  | ok fr =>
    rw [hm] at h
    simp only at h
    cases hrm : rowMapper sentinel n time interval ant1 ant2 fr secs with
    | error e => rw [hrm] at h; cases h
    | ok rm =>
      rw [hrm] at h
      simp only at h
      split at h
      · cases h
      · simp only [Except.ok.injEq] at h
        subst h
        exact ⟨fr, hrm⟩

section
variable [DecidableEq ℂ] (sqrt : ℂ → ℂ) (junk : Nat → Int)
    (sentinel : ℚ) (n nchan ncorr : Nat) (time interval : Nat → ℚ) (ant1 ant2 : Nat → Nat)
    (flagRow : Option (Nat → Nat)) (rowCols : RowCols ℂ)
    (chanFreq chanWidth effectiveBw resolution : Option (Nat → ℂ)) (cols : CubeCols ℂ)
    (secs : ℚ) (bin : Nat) (out : AverageOutput ℂ)
    (h32 : ∀ r < n, IsInt32 (ant1 r)) (hsent : ∀ r < n, time r < sentinel)
    (h01 : ZeroOne n flagRow) (hb : 1 ≤ bin)
    (h : timeAndChannel sqrt junk sentinel n nchan ncorr time interval (fun r => ant1 r) (fun r => ant2 r) flagRow rowCols
      chanFreq chanWidth effectiveBw resolution cols secs bin = .ok out)
    (hpos : ∀ co < ncorr, ∀ S : Finset (Nat × Nat),
      ∑ p ∈ S, sampleWt cols.weightSpectrum cols.weight p.1 p.2 co = 0 →
        ∀ p ∈ S, sampleWt cols.weightSpectrum cols.weight p.1 p.2 co = 0)
    (avg : (Nat → Nat → Nat → ℂ) → Except PyErr (AverageOutput ℂ))
    (havg : avg = fun x => timeAndChannel sqrt junk sentinel n nchan ncorr time interval (fun r => ant1 r) (fun r => ant2 r) flagRow
      rowCols chanFreq chanWidth effectiveBw resolution { cols with vis := some x } secs bin)
    (ntim m : Nat) (idx cnt T : Nat → Nat) (hm : Verif.Calibration.IsMin ntim idx m) (hd : Disjoint' ntim idx cnt)
    (hT : InIntervals n ntim m idx cnt T) (j : Nat → Nat → Nat → Nat → Nat → ℂ)
include h32 hsent h01 hb h hpos havg hm hd hT

/-- **C193**: averaging data corrupted with gains that do not change over the samples of a bin is the same as corrupting the
averaged model: for every output row and channel, with the gains of any row and channel that went into it. -/
theorem C193_corrupt (mod : Nat → Nat → Nat → ℂ) :
    ∃ v ov om, corruptVis ntim idx cnt ant1 ant2 nchan 1 (.five j) (.four fun r f _ c => mod r f c) = .ok (.three v) ∧
      avg v = .ok ov ∧ avg mod = .ok om ∧
      ∀ co < ncorr, GainsConstant n nchan bin out.rows.map T j co →
        ∀ o < out.rows.outRows, ∀ fo < out.outChans, ∀ r < n, ∀ f < nchan, out.rows.map r = o → f / bin = fo →
          ∃ x y, ov.cubeData.vis = some x ∧ om.cubeData.vis = some y ∧
            x o fo co = j (T r) (ant1 r) f 0 co * y o fo co * (starRingEnd ℂ) (j (T r) (ant2 r) f 0 co) := by
  obtain ⟨v, hv, ev, -⟩ := Verif.Calibration.C21_corrupt_diag_diag ant1 ant2 nchan 1 ncorr j (fun r f _ c => mod r f c) hm hd
  obtain ⟨om, _, ov, e1, -, e3, key⟩ := C169_linear sqrt junk sentinel n nchan ncorr time interval (fun r => ant1 r)
    (fun r => ant2 r) flagRow rowCols chanFreq chanWidth effectiveBw resolution cols secs bin out h32 hsent h01 hb h mod mod v
    hpos avg havg
  refine ⟨v, ov, om, hv, e3, e1, fun co hco hconst o ho fo hfo r hr f hf hro hfo' => ?_⟩
  obtain ⟨fr, hrm⟩ := rows_of_ok sqrt junk sentinel n nchan ncorr time interval _ _ flagRow rowCols chanFreq chanWidth effectiveBw
    resolution cols secs bin out h
  obtain ⟨-, -, hbl⟩ := C02_rows_partitioned_by_baseline h32 hsent hrm
  obtain ⟨y, _, x, hy, -, hx, e⟩ := key o ho fo hfo co hco
    (j (T r) (ant1 r) f 0 co * (starRingEnd ℂ) (j (T r) (ant2 r) f 0 co)) 0 (by
      intro q hq g hg hqo hgo
      obtain ⟨b1, b2⟩ := hbl r hr q hq (hro.trans hqo.symm)
      have b1' : ant1 r = ant1 q := by exact_mod_cast b1
      have b2' : ant2 r = ant2 q := by exact_mod_cast b2
      have hmat := congrFun (congrFun (ev (T q) (hT q hq).1 q (hT q hq).2 g hg) ⟨co, hco⟩) ⟨co, hco⟩
      rw [Finset.sum_range_one, Matrix.diagonal_conjTranspose, Matrix.diagonal_mul_diagonal, Matrix.diagonal_mul_diagonal,
        Matrix.diagonal_apply_eq, Matrix.diagonal_apply_eq] at hmat
      have hc := hconst r hr q hq (hro.trans hqo.symm) f hf g hg (hfo'.trans hgo.symm)
      rw [hmat, b1', b2', hc, hc]
      simp only [Pi.star_apply, RCLike.star_def]
      ring)
  exact ⟨x, y, hx, hy, by rw [e]; ring⟩

/-- **C193**: where the gains do change, what averaging does to corrupted data is bounded by the change: if in the samples of a bin
the products of the gains of the two antennas are within `δ` of those of one row and channel of the bin and the model is at most
`B`, the average of the corrupted data is within `δ B` of the averaged model corrupted with the gains of that row and channel. -/
theorem C193_drift (mod : Nat → Nat → Nat → ℂ)
    (hwt : ∀ r < n, ∀ f < nchan, ∀ co < ncorr, ∃ x : ℝ, 0 < x ∧ sampleWt cols.weightSpectrum cols.weight r f co = (x : ℂ)) :
    ∃ v ov om, corruptVis ntim idx cnt ant1 ant2 nchan 1 (.five j) (.four fun r f _ c => mod r f c) = .ok (.three v) ∧
      avg v = .ok ov ∧ avg mod = .ok om ∧
      ∀ co < ncorr, ∀ o < out.rows.outRows, ∀ fo < out.outChans, ∀ r < n, ∀ f < nchan, out.rows.map r = o → f / bin = fo →
        ∀ δ B : ℝ, 0 ≤ δ → (∀ q < n, ∀ g < nchan, out.rows.map q = o → g / bin = fo → ‖mod q g co‖ ≤ B ∧
          ‖j (T q) (ant1 q) g 0 co * (starRingEnd ℂ) (j (T q) (ant2 q) g 0 co) -
            j (T r) (ant1 r) f 0 co * (starRingEnd ℂ) (j (T r) (ant2 r) f 0 co)‖ ≤ δ) →
          ∃ x y, ov.cubeData.vis = some x ∧ om.cubeData.vis = some y ∧
            ‖x o fo co - j (T r) (ant1 r) f 0 co * y o fo co * (starRingEnd ℂ) (j (T r) (ant2 r) f 0 co)‖ ≤ δ * B := by
  obtain ⟨v, hv, ev, -⟩ := Verif.Calibration.C21_corrupt_diag_diag ant1 ant2 nchan 1 ncorr j (fun r f _ c => mod r f c) hm hd
  obtain ⟨ov, om, _, e1, e2, -, -⟩ := C169_linear sqrt junk sentinel n nchan ncorr time interval (fun r => ant1 r)
    (fun r => ant2 r) flagRow rowCols chanFreq chanWidth effectiveBw resolution cols secs bin out h32 hsent h01 hb h v mod v
    hpos avg havg
  refine ⟨v, ov, om, hv, e1, e2, fun co hco o ho fo hfo r hr f hf hro hfo' δ B hδ hbin => ?_⟩
  set G := j (T r) (ant1 r) f 0 co * (starRingEnd ℂ) (j (T r) (ant2 r) f 0 co) with hG
  obtain ⟨ov', om', ou, e1', e2', e3, key⟩ := C169_linear sqrt junk sentinel n nchan ncorr time interval (fun r => ant1 r)
    (fun r => ant2 r) flagRow rowCols chanFreq chanWidth effectiveBw resolution cols secs bin out h32 hsent h01 hb h v mod
    (fun q g c => v q g c - G * mod q g c) hpos avg havg
  obtain rfl : ov' = ov := Except.ok.inj (e1'.symm.trans e1)
  obtain rfl : om' = om := Except.ok.inj (e2'.symm.trans e2)
  obtain ⟨x, y, z, hx, hy, hz, e⟩ := key o ho fo hfo co hco 1 (-G) (fun q hq g hg hqo hgo => by ring)
  refine ⟨x, y, hx, hy, ?_⟩
  rw [havg] at e3
  obtain ⟨hrows, hchans⟩ : ou.rows = out.rows ∧ ou.outChans = out.outChans := by
    have h' := h
    unfold timeAndChannel at h' e3
    cases hmf : mergeFlags n nchan ncorr flagRow cols.flag with
    | error e => rw [hmf] at h'; cases h'
    | ok fr =>
      rw [hmf] at h'
      simp only [hmf] at h' e3
      cases hrm : rowMapper sentinel n time interval (fun r => (ant1 r : Int)) (fun r => (ant2 r : Int)) fr secs with
      | error e => rw [hrm] at h'; cases h'
      | ok rm =>
        simp only [hrm] at h' e3
        split at h'
        · cases h'
        · split at e3
          · cases e3
          · cases h'; cases e3; exact ⟨rfl, rfl⟩
  obtain ⟨z', hz', hball⟩ := C169_convex sqrt junk sentinel n nchan ncorr time interval (fun r => ant1 r) (fun r => ant2 r) flagRow
    rowCols chanFreq chanWidth effectiveBw resolution { cols with vis := some fun q g c => v q g c - G * mod q g c } secs bin ou h32
    hsent h01 hb _ rfl hwt e3 o fo co (hrows ▸ ho) (hchans ▸ hfo) hco (Metric.closedBall 0 (δ * B)) (convex_closedBall _ _)
    (by
      intro q hq g hg hqo hgo
      rw [hrows] at hqo
      obtain ⟨hB, hδq⟩ := hbin q hq g hg hqo hgo
      have hmat := congrFun (congrFun (ev (T q) (hT q hq).1 q (hT q hq).2 g hg) ⟨co, hco⟩) ⟨co, hco⟩
      rw [Finset.sum_range_one, Matrix.diagonal_conjTranspose, Matrix.diagonal_mul_diagonal, Matrix.diagonal_mul_diagonal,
        Matrix.diagonal_apply_eq, Matrix.diagonal_apply_eq] at hmat
      simp only [Pi.star_apply, RCLike.star_def] at hmat
      rw [mem_closedBall_zero_iff, hmat]
      have : j (T q) (ant1 q) g 0 co * mod q g co * (starRingEnd ℂ) (j (T q) (ant2 q) g 0 co) - G * mod q g co =
          (j (T q) (ant1 q) g 0 co * (starRingEnd ℂ) (j (T q) (ant2 q) g 0 co) - G) * mod q g co := by ring
      rw [this, norm_mul]
      exact mul_le_mul hδq hB (norm_nonneg _) hδ)
  obtain rfl : z' = z := Option.some.inj (hz'.symm.trans hz)
  rw [mem_closedBall_zero_iff, e] at hball
  have e' : x o fo co - j (T r) (ant1 r) f 0 co * y o fo co * (starRingEnd ℂ) (j (T r) (ant2 r) f 0 co) =
      1 * x o fo co + -G * y o fo co := by
    rw [hG]
    ring
  rw [e']
  exact hball

/-- **C193**: averaging corrected data is the same as correcting the averaged data, where no sample of the bin is flagged. (In the model a
gain of zero gives zero, in the program it gives nan.) -/
theorem C193_correct (data : Nat → Nat → Nat → ℂ) (flagged : Nat → Nat → Bool) :
    ∃ v ov od, correctVis ntim ntim idx cnt ant1 ant2 nchan 1 ncorr (.five j) (.three data) flagged = .ok (.three v) ∧
      avg v = .ok ov ∧ avg data = .ok od ∧
      ∀ co < ncorr, GainsConstant n nchan bin out.rows.map T j co →
        ∀ o < out.rows.outRows, ∀ fo < out.outChans, ∀ r < n, ∀ f < nchan, out.rows.map r = o → f / bin = fo →
          (∀ q < n, ∀ g < nchan, out.rows.map q = o → g / bin = fo → flagged q g = false) →
          ∃ x y, ov.cubeData.vis = some x ∧ od.cubeData.vis = some y ∧
            x o fo co = y o fo co / (j (T r) (ant1 r) f 0 co * (starRingEnd ℂ) (j (T r) (ant2 r) f 0 co)) := by
  obtain ⟨v, hv, ev⟩ : ∃ v, correctVis ntim ntim idx cnt ant1 ant2 nchan 1 ncorr (.five j) (.three data) flagged = .ok (.three v) ∧
      ∀ t < ntim, ∀ row, InBin idx cnt t (m + row) → ∀ nu < nchan, ∀ c < ncorr, flagged row nu = false →
        v row nu c = data row nu c / (j t (ant1 row) nu 0 c * star (j t (ant2 row) nu 0 c)) := by
    refine ⟨_, by unfold correctVis; rw [Verif.Calibration.shiftIdx_ok hm]; rfl, fun t ht row hr nu hnu c hc hfl => ?_⟩
    rw [Verif.Calibration.binLoop_bin (Verif.Calibration.disjoint_shift hm hd) ht ((Verif.Calibration.inBin_shift hm ht).2 hr) hnu,
      if_neg (by simp [hfl]), Verif.Calibration.inverseMulDD_eq _ _ _ _ _ _ hc]
  obtain ⟨od, _, ov, e1, -, e3, key⟩ := C169_linear sqrt junk sentinel n nchan ncorr time interval (fun r => ant1 r)
    (fun r => ant2 r) flagRow rowCols chanFreq chanWidth effectiveBw resolution cols secs bin out h32 hsent h01 hb h data data v
    hpos avg havg
  refine ⟨v, ov, od, hv, e3, e1, fun co hco hconst o ho fo hfo r hr f hf hro hfo' hfl => ?_⟩
  obtain ⟨fr, hrm⟩ := rows_of_ok sqrt junk sentinel n nchan ncorr time interval _ _ flagRow rowCols chanFreq chanWidth effectiveBw
    resolution cols secs bin out h
  obtain ⟨-, -, hbl⟩ := C02_rows_partitioned_by_baseline h32 hsent hrm
  obtain ⟨y, _, x, hy, -, hx, e⟩ := key o ho fo hfo co hco
    (j (T r) (ant1 r) f 0 co * (starRingEnd ℂ) (j (T r) (ant2 r) f 0 co))⁻¹ 0 (by
      intro q hq g hg hqo hgo
      obtain ⟨b1, b2⟩ := hbl r hr q hq (hro.trans hqo.symm)
      have b1' : ant1 r = ant1 q := by exact_mod_cast b1
      have b2' : ant2 r = ant2 q := by exact_mod_cast b2
      have hc := hconst r hr q hq (hro.trans hqo.symm) f hf g hg (hfo'.trans hgo.symm)
      rw [ev (T q) (hT q hq).1 q (hT q hq).2 g hg co hco (hfl q hq g hg hqo hgo), b1', b2', hc, hc, RCLike.star_def]
      ring)
  exact ⟨x, y, hx, hy, by rw [e]; ring⟩

end

theorem one_row [DecidableEq ℂ] (v : Nat → Nat → Nat → ℂ) : ∃ out : AverageOutput ℂ,
    timeAndChannel id (fun _ => 0) 1000 1 4 1 (fun _ => 0) (fun _ => 1) (fun _ => ((0 : Nat) : Int)) (fun _ => ((1 : Nat) : Int)) none
        ⟨none, none, none, none, none⟩ none none none none ⟨none, some v, none, none, none⟩ 1 2 = .ok out ∧
      out.rows.outRows = 1 ∧ out.outChans = 2 ∧ out.rows.map 0 = 0 := by
  have h : (match rowMapper 1000 1 (fun _ => 0) (fun _ => 1) (fun _ => ((0 : Nat) : Int)) (fun _ => ((1 : Nat) : Int)) none 1 with
    | .error _ => none
    | .ok rm => some (rm.outRows, rm.map 0)) = some (1, 0) := by
    decide +kernel
  cases hrm : rowMapper 1000 1 (fun _ => 0) (fun _ => 1) (fun _ => ((0 : Nat) : Int)) (fun _ => ((1 : Nat) : Int)) none 1 with
  | error e => rw [hrm] at h; cases h
  | ok rm =>
    rw [hrm] at h
    simp only [Option.some.injEq, Prod.mk.injEq] at h
    obtain ⟨cube, hc, -⟩ := rowChan_main id 4 1 2 ⟨none, some v, none, none, none⟩
      (fun r hr => by simp [IsInt32]) (fun r hr => by norm_num) (fun _ hg => by cases hg) (by decide) hrm
    refine ⟨_, by unfold timeAndChannel; simp only [mergeFlags, hrm, hc]; rfl, h.1, rfl, h.2⟩

/-- One row with four channels averaged in pairs, and gains that change from pair to pair, meet the hypotheses. -/
example : ∃ _ : DecidableEq ℂ, ∃ out : AverageOutput ℂ,
    timeAndChannel id (fun _ => 0) 1000 1 4 1 (fun _ => 0) (fun _ => 1) (fun _ => ((0 : Nat) : Int)) (fun _ => ((1 : Nat) : Int)) none
        ⟨none, none, none, none, none⟩ none none none none ⟨none, some fun _ _ _ => 1, none, none, none⟩ 1 2 = .ok out ∧
      out.rows.outRows = 1 ∧ out.outChans = 2 ∧ InIntervals 1 1 0 (fun t => t) (fun _ => 1) (fun r => r) ∧
      GainsConstant 1 4 2 out.rows.map (fun r => r) (fun _ a f _ _ => Complex.I ^ (a + f / 2)) 0 := by
  refine ⟨Classical.decEq _, ?_⟩
  obtain ⟨out, h1, h2, h3, -⟩ := one_row (fun _ _ _ => 1)
  refine ⟨out, h1, h2, h3, fun r hr => ⟨hr, by simp [InBin]⟩, fun _ _ _ _ _ f _ g _ hfg a => ?_⟩
  dsimp only
  rw [hfg]

end Verif.Averaging
