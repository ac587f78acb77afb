/-
Properties C11-C20 and C90: averaging of rows, samples and channels.
-/
import Verif.Averaging.Props
import Verif.Averaging.LemmasCube
import Mathlib.Analysis.SpecialFunctions.Pow.Real

set_option autoImplicit false
set_option linter.unusedSectionVars false

namespace Verif.Averaging

open Function

section rows
variable {K : Type*} [Field K] [DecidableEq K]
variable {n : Nat} {time interval : Nat → ℚ} {ant1 ant2 : Nat → Int}
  {flagRow : Option (Nat → Nat)} {secs sentinel : ℚ} {rm : RowMapOutput}

/-- Sums made by the accumulation loop of `row_average`. -/
theorem rowLoop_sum {M : Type*} [AddCommMonoid M] (hok : RowMapOK n time interval ant1 ant2 flagRow secs sentinel rm)
    (h01 : ZeroOne n flagRow) {cols : RowCols K} {ncorr : Nat} {o : Nat} (ho : o < rm.outRows)
    (obs : RowAcc K → M) (x : Nat → M) (init : RowAcc K) (hinit : obs init = 0)
    (h : ∀ r s, obs (rowStep rm flagRow ant1 ant2 cols ncorr r s) =
      obs s + if hits rm flagRow r o then x r else 0) :
    obs (forRange n init (rowStep rm flagRow ant1 ant2 cols ncorr)) =
      ∑ r ∈ contributors n rm.map flagRow o, x r := by
  rw [forRange_obs obs _ _ _ _ (fun r s _ => h r s), hinit, zero_add, ← Finset.sum_filter,
    (hits_filter hok h01 ho).1]

/-- C11. For every output row: uvw and time centroid are means, exposure and weight are sums over
the contributing rows (the unflagged ones if any, else all), of which there is at least one, and the
antennas are those of every row mapped to it. -/
theorem C11_row_average (sqrt : K → K) (junk : Nat → Int) (cols : RowCols K) (ncorr : Nat)
    (h32 : ∀ r < n, IsInt32 (ant1 r)) (hsent : ∀ r < n, time r < sentinel)
    (h01 : ZeroOne n flagRow)
    (h : rowMapper sentinel n time interval ant1 ant2 flagRow secs = .ok rm)
    (out : RowAverageOutput K)
    (hout : out = rowAverage sqrt junk n rm flagRow ant1 ant2 cols ncorr) (o : Nat)
    (ho : o < rm.outRows) (C : Finset Nat) (hC : C = contributors n rm.map flagRow o) :
    0 < C.card ∧
    (∀ u, cols.uvw = some u → ∃ a, out.uvw = some a ∧
      ∀ k < 3, a o k = (∑ r ∈ C, u r k) / C.card) ∧
    (∀ t, cols.timeCentroid = some t → ∃ a, out.timeCentroid = some a ∧
      a o = (∑ r ∈ C, t r) / C.card) ∧
    (∀ e, cols.exposure = some e → ∃ a, out.exposure = some a ∧ a o = ∑ r ∈ C, e r) ∧
    (∀ w, cols.weight = some w → ∃ a, out.weight = some a ∧
      ∀ c < ncorr, a o c = ∑ r ∈ C, w r c) ∧
    (∀ r < n, rm.map r = o → out.ant1 o = ant1 r ∧ out.ant2 o = ant2 r) := by
  have hok := (rowMapOK_of_ok h32 hsent h).2
  have hne := (hits_filter hok h01 ho).2
  subst hC hout
  have hcard := Finset.card_pos.2 hne
  unfold rowAverage
  simp only
  set s := forRange n _ (rowStep rm flagRow ant1 ant2 cols ncorr) with hs
  have hcnt : s.counts o = (contributors n rm.map flagRow o).card := by
    rw [Finset.card_eq_sum_ones]
    exact rowLoop_sum hok h01 ho (fun s => s.counts o) (fun _ => 1) _ rfl
      (fun r s => rowStep_counts rm flagRow ant1 ant2 cols ncorr r s o)
  refine ⟨hcard, ?_, ?_, ?_, ?_, ?_⟩
  · intro u hu
    rw [hu]
    refine ⟨_, rfl, fun k hk => ?_⟩
    simp only
    rw [if_pos ⟨by rw [hcnt]; exact hcard, hk⟩, hcnt]
    congr 1
    exact rowLoop_sum hok h01 ho (fun s => s.uvw o k) (fun r => u r k) _ rfl
      (fun r s => rowStep_uvw rm flagRow ant1 ant2 cols ncorr r s o k u hu hk)
  · intro t ht
    rw [ht]
    refine ⟨_, rfl, ?_⟩
    simp only
    rw [if_pos (by rw [hcnt]; exact hcard), hcnt]
    congr 1
    exact rowLoop_sum hok h01 ho (fun s => s.timeCentroid o) (fun r => t r) _ rfl
      (fun r s => rowStep_tc rm flagRow ant1 ant2 cols ncorr r s o t ht)
  · intro e he
    rw [he]
    refine ⟨_, rfl, ?_⟩
    exact rowLoop_sum hok h01 ho (fun s => s.exposure o) (fun r => e r) _ rfl
      (fun r s => rowStep_exposure rm flagRow ant1 ant2 cols ncorr r s o e he)
  · intro w hw
    rw [hw]
    refine ⟨_, rfl, fun c hc => ?_⟩
    exact rowLoop_sum hok h01 ho (fun s => s.weight o c) (fun r => w r c) _ rfl
      (fun r s => rowStep_weight rm flagRow ant1 ant2 cols ncorr r s o c w hw hc)
  · have hant : ∀ N ≤ n, ∀ init : RowAcc K, ∀ r < N,
        (forRange N init (rowStep rm flagRow ant1 ant2 cols ncorr)).ant1 (rm.map r) = ant1 r ∧
        (forRange N init (rowStep rm flagRow ant1 ant2 cols ncorr)).ant2 (rm.map r) = ant2 r := by
      intro N
      induction N with
      | zero => intro _ _ r hr; omega
      | succ N ih =>
        intro hN init r hr
        rw [forRange_succ, (rowStep_ant rm flagRow ant1 ant2 cols ncorr N _).1,
          (rowStep_ant rm flagRow ant1 ant2 cols ncorr N _).2, update_apply, update_apply]
        by_cases hm : rm.map r = rm.map N
        · rw [if_pos hm, if_pos hm]
          have := hok.sameBl r (by omega) N (by omega) hm
          exact ⟨this.1.symm, this.2.symm⟩
        · rw [if_neg hm, if_neg hm]
          refine ih (by omega) init r ?_
          rcases Nat.lt_succ_iff_lt_or_eq.1 hr with h | h
          · exact h
          · rw [h] at hm; exact absurd rfl hm
    intro r hr hm
    rw [← hm]
    exact hant n le_rfl _ r hr

/-- C13. Averaged sigma: `sqrt(sum(sigma^2 w^2) / sum(w)^2)` over the contributing rows when the
weights do not sum to zero, `sqrt 0` when all of them are zero. -/
theorem C13_sigma (sqrt : K → K) (junk : Nat → Int) (cols : RowCols K) (ncorr : Nat)
    (h32 : ∀ r < n, IsInt32 (ant1 r)) (hsent : ∀ r < n, time r < sentinel)
    (h01 : ZeroOne n flagRow)
    (h : rowMapper sentinel n time interval ant1 ant2 flagRow secs = .ok rm)
    (sg : Nat → Nat → K) (hsg : cols.sigma = some sg) (o c : Nat) (ho : o < rm.outRows)
    (hc : c < ncorr) (C : Finset Nat) (hC : C = contributors n rm.map flagRow o) :
    ∃ a, (rowAverage sqrt junk n rm flagRow ant1 ant2 cols ncorr).sigma = some a ∧
      (∑ r ∈ C, rowWt cols.weight r c ≠ 0 →
        a o c = sqrt ((∑ r ∈ C, sg r c ^ 2 * rowWt cols.weight r c ^ 2) /
          (∑ r ∈ C, rowWt cols.weight r c) ^ 2)) ∧
      ((∀ r ∈ C, rowWt cols.weight r c = 0) → a o c = sqrt 0) := by
  have hok := (rowMapOK_of_ok h32 hsent h).2
  have hne := (hits_filter hok h01 ho).2
  subst hC
  have hcard := Finset.card_pos.2 hne
  unfold rowAverage
  simp only
  set s := forRange n _ (rowStep rm flagRow ant1 ant2 cols ncorr) with hs
  have hcnt : s.counts o = (contributors n rm.map flagRow o).card := by
    rw [Finset.card_eq_sum_ones]
    exact rowLoop_sum hok h01 ho (fun s => s.counts o) (fun _ => 1) _ rfl
      (fun r s => rowStep_counts rm flagRow ant1 ant2 cols ncorr r s o)
  have h1 : s.sigma o c = ∑ r ∈ contributors n rm.map flagRow o, sg r c ^ 2 * rowWt cols.weight r c ^ 2 :=
    rowLoop_sum hok h01 ho (fun s => s.sigma o c) _ _ rfl
      (fun r s => (rowStep_sigma rm flagRow ant1 ant2 cols ncorr r s o c sg hsg hc).1)
  have h2 : s.sigmaW o c = ∑ r ∈ contributors n rm.map flagRow o, rowWt cols.weight r c :=
    rowLoop_sum hok h01 ho (fun s => s.sigmaW o c) _ _ rfl
      (fun r s => (rowStep_sigma rm flagRow ant1 ant2 cols ncorr r s o c sg hsg hc).2)
  rw [hsg]
  refine ⟨_, rfl, ?_, ?_⟩
  · intro hW
    simp only
    rw [if_pos ⟨by rw [hcnt]; exact hcard, hc⟩, h1, h2, if_pos hW]
  · intro hz
    simp only
    rw [if_pos ⟨by rw [hcnt]; exact hcard, hc⟩, h1, h2, if_neg]
    · congr 1
      exact Finset.sum_eq_zero fun r hr => by rw [hz r hr]; ring
    · rw [not_not]
      exact Finset.sum_eq_zero fun r hr => hz r hr

end rows

/-- C13 over the reals: for positive total weight the averaged sigma is
`sqrt(sum(sigma^2 w^2)) / sum(w)`. -/
theorem C13_sigma_real {n : Nat} {time interval : Nat → ℚ} {ant1 ant2 : Nat → Int}
    {flagRow : Option (Nat → Nat)} {secs sentinel : ℚ} {rm : RowMapOutput}
    (junk : Nat → Int) (cols : RowCols ℝ) (ncorr : Nat)
    (h32 : ∀ r < n, IsInt32 (ant1 r)) (hsent : ∀ r < n, time r < sentinel)
    (h01 : ZeroOne n flagRow)
    (h : rowMapper sentinel n time interval ant1 ant2 flagRow secs = .ok rm)
    (sg : Nat → Nat → ℝ) (hsg : cols.sigma = some sg) (o c : Nat) (ho : o < rm.outRows)
    (hc : c < ncorr) (C : Finset Nat) (hC : C = contributors n rm.map flagRow o) :
    ∃ a, (rowAverage Real.sqrt junk n rm flagRow ant1 ant2 cols ncorr).sigma = some a ∧
      (0 < ∑ r ∈ C, rowWt cols.weight r c →
        a o c = Real.sqrt (∑ r ∈ C, sg r c ^ 2 * rowWt cols.weight r c ^ 2) /
          ∑ r ∈ C, rowWt cols.weight r c) ∧
      ((∀ r ∈ C, rowWt cols.weight r c = 0) → a o c = 0) := by
  obtain ⟨a, h1, h2, h3⟩ := C13_sigma Real.sqrt junk cols ncorr h32 hsent h01 h sg hsg o c ho hc C hC
  refine ⟨a, h1, fun hW => ?_, fun hz => by rw [h3 hz, Real.sqrt_zero]⟩
  rw [h2 hW.ne', Real.sqrt_div' _ (sq_nonneg _), Real.sqrt_sq hW.le]

/-- A table with flags on which C11 and C13 apply: two rows of one baseline, the second flagged, so
that only the first contributes. -/
example : ∃ rm, rowMapper 1000 2 (fun r => (r : ℚ)) (fun _ => 1) (fun _ => 0) (fun _ => 1)
    (some fun r => r) 10 = .ok rm ∧ 0 < rm.outRows ∧
    ZeroOne 2 (some fun r => r) ∧ rm.map 0 = rm.map 1 ∧
    contributors 2 rm.map (some fun r => r) (rm.map 0) = {0} := by
  have h32 : ∀ r < 2, IsInt32 ((fun _ => 0 : Nat → Int) r) := by unfold IsInt32; decide
  have hs : ∀ r < (2 : Nat), (r : ℚ) < 1000 := by decide +kernel
  obtain ⟨rm, h, hok⟩ := rowMapper_ok (n := 2) (time := fun r => (r : ℚ))
    (interval := fun _ => 1) (ant1 := fun _ => 0) (ant2 := fun _ => 1)
    (flagRow := some fun r => r) (secs := 10) h32 hs (by unfold NoDup; decide +kernel)
  have hm : rm.map 0 = rm.map 1 := by
    rw [C08_sharing_partial h32 hs (fun r _ q _ _ _ hl => by
      simp only [lowEdge, highEdge]; constructor <;> linarith) h 0 0 1 (by omega) (by omega) (by omega)
      ⟨rfl, rfl⟩ (fun p _ _ _ => by simp) ⟨rfl, rfl⟩ (by decide +kernel)]
    decide +kernel
  refine ⟨rm, h, Nat.lt_of_le_of_lt (Nat.zero_le _) (hok.inRange 0 (by omega)), ?_, hm, ?_⟩
  · intro f hf r hr
    cases hf
    simp only
    omega
  · unfold contributors fibre
    rw [if_neg]
    · ext r
      simp only [Finset.mem_filter, Finset.mem_range, rowFlagged, Finset.mem_singleton, not_not]
      constructor
      · rintro ⟨_, h⟩; exact h
      · rintro rfl; simp
    · intro hh
      have := hh 0 (by simp)
      simp [rowFlagged] at this

/-! ### C12 -/

/-- C12 (partial). Row mapping only depends on which rows have a non-zero flag. Missing: the averages
themselves, which do depend on the flag value; see `C12_violated`. -/
theorem C12_row_mapper_partial (sentinel : ℚ) (n : Nat) (time interval : Nat → ℚ)
    (ant1 ant2 : Nat → Int) (f f' : Nat → Nat) (secs : ℚ) (hff : ∀ r, f r = 0 ↔ f' r = 0) :
    rowMapper sentinel n time interval ant1 ant2 (some f) secs =
      rowMapper sentinel n time interval ant1 ant2 (some f') secs := by
  have h1 : isFlagged (some f) = isFlagged (some f') := by
    funext r; simp [isFlagged, hff r]
  have h2 : ∀ bls bi ti nt orows inv, finalStep bls bi ti nt orows inv (some f) =
      finalStep bls bi ti nt orows inv (some f') := by
    intro bls bi ti nt orows inv
    funext r s
    unfold finalStep setFlagRow
    simp only [hff r]
  unfold rowMapper
  simp only [h1, h2, Option.map_some]

/-- C12 is violated: a single flagged row keeps its exposure when the flag value is 1 and loses it
when the flag value is 2. -/
theorem C12_violated : ∃ (rm : RowMapOutput) (e1 e2 : Nat → ℚ) (o : Nat),
    rowMapper 1000 1 (fun _ => 5) (fun _ => 1) (fun _ => 0) (fun _ => 1) (some fun _ => 1) 1 = .ok rm ∧
    rowMapper 1000 1 (fun _ => 5) (fun _ => 1) (fun _ => 0) (fun _ => 1) (some fun _ => 2) 1 = .ok rm ∧
    o < rm.outRows ∧
    (rowAverage (K := ℚ) id (fun _ => 0) 1 rm (some fun _ => 1) (fun _ => 0) (fun _ => 1)
      ⟨none, some fun _ => 7, none, none, none⟩ 0).exposure = some e1 ∧
    (rowAverage (K := ℚ) id (fun _ => 0) 1 rm (some fun _ => 2) (fun _ => 0) (fun _ => 1)
      ⟨none, some fun _ => 7, none, none, none⟩ 0).exposure = some e2 ∧
    e1 o = 7 ∧ e2 o = 0 := by
  have h32 : ∀ r < 1, IsInt32 ((fun _ => 0 : Nat → Int) r) := by unfold IsInt32; decide
  have hs : ∀ r < (1 : Nat), ((fun _ => 5 : Nat → ℚ) r) < 1000 := by decide +kernel
  obtain ⟨rm, h, hok⟩ := rowMapper_ok (n := 1) (time := fun _ => 5)
    (interval := fun _ => 1) (ant1 := fun _ => 0) (ant2 := fun _ => 1)
    (flagRow := some fun _ => 1) (secs := 1) h32 hs (by unfold NoDup; decide +kernel)
  obtain ⟨g, hg, hgo⟩ := hok.flag_ok _ rfl
  have hg1 := (hgo _ (hok.inRange 0 (by omega))).1 (fun _ _ _ => by decide)
  refine ⟨rm, _, _, rm.map 0, h, ?_, hok.inRange 0 (by omega), rfl, rfl, ?_, ?_⟩
  · rw [← h]; exact C12_row_mapper_partial _ _ _ _ _ _ _ _ _ (fun r => by simp)
  · simp [forRange_succ, rowStep, rowAdd, flagsMatch, hg, hg1, add1]
  · simp [forRange_succ, rowStep, flagsMatch, hg, hg1]

/-! ### C14 - C16 -/

section cube
variable {K : Type*} [Field K] [DecidableEq K]
variable {n : Nat} {time interval : Nat → ℚ} {ant1 ant2 : Nat → Int}
  {flagRow : Option (Nat → Nat)} {secs sentinel : ℚ} {rm : RowMapOutput}

theorem isChanFlagged_iff (flag : Option (Nat → Nat → Nat → Nat)) (r f c : Nat) :
    isChanFlagged flag r f c = true ↔ sampleFlagged flag r f c := by
  cases flag <;> simp [isChanFlagged, sampleFlagged]

theorem samples_eq_bin (hok : RowMapOK n time interval ant1 ant2 flagRow secs sentinel rm)
    (h01 : ZeroOne n flagRow) {nchan : Nat} {cm : Nat → Nat} {o fo : Nat} (ho : o < rm.outRows) :
    samples n nchan rm flagRow cm o fo = binSamples n nchan rm.map flagRow cm o fo := by
  unfold samples binSamples
  rw [(hits_filter hok h01 ho).1]

/-- The samples used by the code are the specified ones: unflagged family if non-empty, else the
flagged family. -/
theorem used_cases (hok : RowMapOK n time interval ant1 ant2 flagRow secs sentinel rm)
    (h01 : ZeroOne n flagRow) {nchan : Nat} {cm : Nat → Nat} {o fo co : Nat} (ho : o < rm.outRows)
    (hfo : ∃ f < nchan, cm f = fo) (flag : Option (Nat → Nat → Nat → Nat)) :
    let B := binSamples n nchan rm.map flagRow cm o fo
    let U := famSamples n nchan rm flagRow cm flag false o fo co
    let F := famSamples n nchan rm flagRow cm flag true o fo co
    B.Nonempty ∧
    ((¬ (∀ p ∈ B, sampleFlagged flag p.1 p.2 co) ∧ 0 < U.card ∧ U = usedSamples flag B co) ∨
     ((∀ p ∈ B, sampleFlagged flag p.1 p.2 co) ∧ U.card = 0 ∧ 0 < F.card ∧
        F = usedSamples flag B co)) := by
  intro B U F
  have hB : B.Nonempty := by
    obtain ⟨r, hr⟩ := (hits_filter hok h01 ho).2
    obtain ⟨f, hf, hm⟩ := hfo
    exact ⟨(r, f), by simp [B, binSamples, hr, fibre, hf, hm]⟩
  have hU : U = B.filter fun p => ¬ sampleFlagged flag p.1 p.2 co := by
    simp only [U, B, famSamples, samples_eq_bin hok h01 ho]
    apply Finset.filter_congr
    intro p _
    rw [← isChanFlagged_iff]; simp
  have hF : F = B.filter fun p => sampleFlagged flag p.1 p.2 co := by
    simp only [F, B, famSamples, samples_eq_bin hok h01 ho]
    apply Finset.filter_congr
    intro p _
    rw [← isChanFlagged_iff]
  refine ⟨hB, ?_⟩
  by_cases hall : ∀ p ∈ B, sampleFlagged flag p.1 p.2 co
  · right
    have hF' : F = B := by rw [hF]; exact Finset.filter_true_of_mem hall
    refine ⟨hall, ?_, ?_, ?_⟩
    · rw [hU, Finset.card_eq_zero]
      exact Finset.filter_false_of_mem fun p hp => by simpa using hall p hp
    · rw [hF']; exact Finset.card_pos.2 hB
    · rw [hF', usedSamples, if_pos hall]
  · left
    refine ⟨hall, ?_, ?_⟩
    · push Not at hall
      obtain ⟨p, hp, hn⟩ := hall
      rw [Finset.card_pos, hU]
      exact ⟨p, by simp [hp, hn]⟩
    · rw [usedSamples, if_neg hall, hU]

/-- C14, C15, C16 together: `row_chan_average` succeeds for the maps made by `row_mapper` and
`channel_mapper`, and every output sample is made from the specified input samples. -/
theorem rowChan_main (sqrt : K → K) (nchan ncorr bin : Nat) (cols : CubeCols K)
    (h32 : ∀ r < n, IsInt32 (ant1 r)) (hsent : ∀ r < n, time r < sentinel)
    (h01 : ZeroOne n flagRow) (hb : 1 ≤ bin)
    (h : rowMapper sentinel n time interval ant1 ant2 flagRow secs = .ok rm) :
    ∃ out, rowChanAverage sqrt n nchan ncorr rm flagRow (channelMapper nchan bin).1
        (channelMapper nchan bin).2 cols = .ok out ∧
      ∀ o < rm.outRows, ∀ fo < (channelMapper nchan bin).2, ∀ co < ncorr,
      ∀ B, B = binSamples n nchan rm.map flagRow (channelMapper nchan bin).1 o fo →
      ∀ S, S = usedSamples cols.flag B co →
      ∀ w : Nat → Nat → K, (w = fun r f => sampleWt cols.weightSpectrum cols.weight r f co) →
      B.Nonempty ∧ S.Nonempty ∧
      (∀ v, cols.vis = some v → ∃ a, out.vis = some a ∧
        (∑ p ∈ S, w p.1 p.2 ≠ 0 →
          a o fo co = (∑ p ∈ S, v p.1 p.2 co * w p.1 p.2) / ∑ p ∈ S, w p.1 p.2) ∧
        ((∀ p ∈ S, w p.1 p.2 = 0) → a o fo co = 0)) ∧
      (∀ fl, cols.flag = some fl → ∃ a, out.flag = some a ∧
        (a o fo co = 0 ∨ a o fo co = 1) ∧
        (a o fo co = 1 ↔ ∀ p ∈ B, fl p.1 p.2 co ≠ 0)) ∧
      (∀ ws, cols.weightSpectrum = some ws → ∃ a, out.weightSpectrum = some a ∧
        a o fo co = ∑ p ∈ S, ws p.1 p.2 co) ∧
      (∀ sg, cols.sigmaSpectrum = some sg → ∃ a, out.sigmaSpectrum = some a ∧
        (∑ p ∈ S, w p.1 p.2 ≠ 0 →
          a o fo co = sqrt ((∑ p ∈ S, sg p.1 p.2 co ^ 2 * w p.1 p.2 ^ 2) /
            (∑ p ∈ S, w p.1 p.2) ^ 2)) ∧
        ((∀ p ∈ S, w p.1 p.2 = 0) → a o fo co = 0)) := by
  have hok := (rowMapOK_of_ok h32 hsent h).2
  obtain ⟨-, -, -, honto⟩ := C01_channel_map nchan bin hb
  generalize (channelMapper nchan bin).1 = cm at *
  generalize (channelMapper nchan bin).2 = nout at *
  unfold rowChanAverage
  simp only
  have hu := fun o fo co hco => cubeLoop_vals (K := K) (n := n) (nchan := nchan) (ncorr := ncorr)
    (rm := rm) (flagRow := flagRow) (chanMap := cm) (cols := cols) false o fo co hco
  have hf := fun o fo co hco => cubeLoop_vals (K := K) (n := n) (nchan := nchan) (ncorr := ncorr)
    (rm := rm) (flagRow := flagRow) (chanMap := cm) (cols := cols) true o fo co hco
  simp only [CubeState.pick, if_true, Bool.false_eq_true, if_false] at hu hf
  generalize cubeLoop n nchan ncorr rm flagRow cm cols ⟨CubeAcc.zero, CubeAcc.zero⟩ = st at *
  rw [if_neg]
  · refine ⟨_, rfl, ?_⟩
    rintro o ho fo hfo co hco B rfl S rfl w rfl
    obtain ⟨u1, u2, u3, u4⟩ := hu o fo co hco
    obtain ⟨f1, f2, f3, f4⟩ := hf o fo co hco
    obtain ⟨hB, hcase⟩ := used_cases (co := co) hok h01 ho (honto fo hfo) cols.flag
    rcases hcase with ⟨hnall, hU, hUS⟩ | ⟨hall, hU, hF, hFS⟩
    · have hpos : st.unflagged.counts o fo co > 0 := by rw [u1]; exact hU
      rw [← hUS]
      refine ⟨hB, Finset.card_pos.1 hU, ?_, ?_, ?_, ?_⟩
      · intro v hv
        obtain ⟨e1, e2⟩ := u2 v hv
        rw [hv]
        refine ⟨_, rfl, ?_, ?_⟩
        · intro hW
          simp only
          rw [if_pos hpos, visNorm, e2, if_pos hW, e1]
        · intro hz
          simp only
          rw [if_pos hpos, visNorm, e2, if_neg, e1]
          · exact Finset.sum_eq_zero fun p hp => by rw [show sampleWt cols.weightSpectrum cols.weight p.1 p.2 co = 0 from hz p hp, mul_zero]
          · rw [not_not]; exact Finset.sum_eq_zero hz
      · intro fl hfl
        rw [hfl]
        refine ⟨_, rfl, ?_, ?_⟩
        · simp only; split <;> simp
        · simp only
          rw [if_pos hpos]
          refine ⟨fun h => by omega, fun h => absurd ?_ hnall⟩
          intro p hp
          rw [hfl]
          exact h p hp
      · intro ws hws
        rw [hws]
        refine ⟨_, rfl, ?_⟩
        simp only
        rw [if_pos hpos, u3 ws hws]
      · intro sg hsg
        obtain ⟨e1, e2⟩ := u4 sg hsg
        rw [hsg]
        refine ⟨_, rfl, ?_, ?_⟩
        · intro hW
          simp only
          rw [if_pos hpos, sigmaNorm, e2, if_neg hW, e1]
        · intro hz
          simp only
          rw [if_pos hpos, sigmaNorm, e2, if_pos (Finset.sum_eq_zero hz), e1]
          exact Finset.sum_eq_zero fun p hp => by rw [show sampleWt cols.weightSpectrum cols.weight p.1 p.2 co = 0 from hz p hp]; ring
    · have hpos : ¬ st.unflagged.counts o fo co > 0 := by rw [u1, hU]; omega
      have hempty : famSamples n nchan rm flagRow cm cols.flag false o fo co = ∅ :=
        Finset.card_eq_zero.1 hU
      rw [← hFS]
      refine ⟨hB, Finset.card_pos.1 hF, ?_, ?_, ?_, ?_⟩
      · intro v hv
        obtain ⟨e1, e2⟩ := f2 v hv
        obtain ⟨e3, _⟩ := u2 v hv
        rw [hempty, Finset.sum_empty] at e3
        rw [hv]
        refine ⟨_, rfl, ?_, ?_⟩
        · intro hW
          simp only
          rw [if_neg hpos, visNorm, e2, if_pos hW, e1]
        · intro hz
          simp only
          rw [if_neg hpos, visNorm, e2, if_neg, e3]
          rw [not_not]; exact Finset.sum_eq_zero hz
      · intro fl hfl
        rw [hfl]
        refine ⟨_, rfl, ?_, ?_⟩
        · simp only; split <;> simp
        · simp only
          rw [if_neg hpos]
          refine ⟨fun _ p hp => ?_, fun _ => rfl⟩
          have := hall p hp
          rw [hfl] at this
          exact this
      · intro ws hws
        rw [hws]
        refine ⟨_, rfl, ?_⟩
        simp only
        rw [if_neg hpos, f3 ws hws]
      · intro sg hsg
        obtain ⟨e1, e2⟩ := f4 sg hsg
        obtain ⟨e3, _⟩ := u4 sg hsg
        rw [hempty, Finset.sum_empty] at e3
        rw [hsg]
        refine ⟨_, rfl, ?_, ?_⟩
        · intro hW
          simp only
          rw [if_neg hpos, sigmaNorm, e2, if_neg hW, e1]
        · intro hz
          simp only
          rw [if_neg hpos, sigmaNorm, e2, if_pos (Finset.sum_eq_zero hz), e3]
  · intro hany
    simp only [List.any_eq_true, List.mem_range, decide_eq_true_eq] at hany
    obtain ⟨o, ho, fo, hfo, co, hco, h1, h2⟩ := hany
    rw [(hu o fo co hco).1] at h1
    rw [(hf o fo co hco).1] at h2
    obtain ⟨_, hcase⟩ := used_cases (co := co) hok h01 ho (honto fo hfo) cols.flag
    rcases hcase with ⟨_, hU, _⟩ | ⟨_, _, hF, _⟩ <;> omega

end cube

end Verif.Averaging
