/-
Properties C01-C10: row and channel mapping.
-/
import Verif.Averaging.LemmasChan

set_option autoImplicit false

namespace Verif.Averaging

open Function

/-! ### C01 -/

/-- C01. Channel `c` goes to `c / b`, there are `ceil(nchan / b)` output channels and each receives
an input channel. -/
theorem C01_channel_map (nchan b : Nat) (hb : 1 ≤ b) :
    (∀ c < nchan, (channelMapper nchan b).1 c = c / b) ∧
    (channelMapper nchan b).2 = (nchan + b - 1) / b ∧
    (∀ c < nchan, (channelMapper nchan b).1 c < (channelMapper nchan b).2) ∧
    (∀ o < (channelMapper nchan b).2, ∃ c < nchan, (channelMapper nchan b).1 c = o) := by
  obtain ⟨h1, h2⟩ := channelMapper_spec (nchan := nchan) hb
  refine ⟨h1, h2, ?_, ?_⟩
  · intro c hc
    rw [h1 c hc, h2, Nat.lt_iff_add_one_le, Nat.le_div_iff_mul_le (by omega)]
    have := Nat.div_mul_le_self c b
    rw [Nat.add_mul]; omega
  · intro o ho
    rw [h2, Nat.lt_iff_add_one_le, Nat.le_div_iff_mul_le (by omega), Nat.add_mul] at ho
    have hlt : o * b < nchan := by omega
    exact ⟨o * b, hlt, by rw [h1 _ hlt, Nat.mul_div_cancel _ (by omega)]⟩

example : (channelMapper 7 3).2 = 3 ∧ (channelMapper 7 3).1 6 = 2 := by decide

/-! ### C02 - C06 -/

section
variable {n : Nat} {time interval : Nat → ℚ} {ant1 ant2 : Nat → Int}
  {flagRow : Option (Nat → Nat)} {secs sentinel : ℚ} {out : RowMapOutput}

/-- The facts of `RowMapOK` for any successful call. -/
theorem rowMapOK_of_ok (h32 : ∀ r < n, IsInt32 (ant1 r)) (hsent : ∀ r < n, time r < sentinel)
    (h : rowMapper sentinel n time interval ant1 ant2 flagRow secs = .ok out) :
    NoDup n time ant1 ant2 ∧ RowMapOK n time interval ant1 ant2 flagRow secs sentinel out := by
  have hd : NoDup n time ant1 ant2 := by
    by_contra hc
    rw [rowMapper_dup hc] at h
    cases h
  obtain ⟨out', h1, h2⟩ := rowMapper_ok (interval := interval) (flagRow := flagRow) (secs := secs)
    h32 hsent hd
  rw [h] at h1
  cases h1
  exact ⟨hd, h2⟩

/-- C02. Rows are mapped in range and onto, and an output row holds one baseline only. -/
theorem C02_rows_partitioned_by_baseline
    (h32 : ∀ r < n, IsInt32 (ant1 r)) (hsent : ∀ r < n, time r < sentinel)
    (h : rowMapper sentinel n time interval ant1 ant2 flagRow secs = .ok out) :
    (∀ r < n, out.map r < out.outRows) ∧
    (∀ o < out.outRows, ∃ r < n, out.map r = o) ∧
    (∀ r < n, ∀ q < n, out.map r = out.map q → ant1 r = ant1 q ∧ ant2 r = ant2 q) :=
  have hok := (rowMapOK_of_ok h32 hsent h).2
  ⟨hok.inRange, hok.onto, hok.sameBl⟩

/-- C03. Output time is the mean and output interval the sum over the rows mapped to it. -/
theorem C03_time_mean_interval_sum
    (h32 : ∀ r < n, IsInt32 (ant1 r)) (hsent : ∀ r < n, time r < sentinel)
    (h : rowMapper sentinel n time interval ant1 ant2 flagRow secs = .ok out) :
    ∀ o < out.outRows,
      0 < (fibre n out.map o).card ∧
      out.time o = (∑ r ∈ fibre n out.map o, time r) / (fibre n out.map o).card ∧
      out.interval o = ∑ r ∈ fibre n out.map o, interval r := by
  have hok := (rowMapOK_of_ok h32 hsent h).2
  intro o ho
  refine ⟨?_, hok.time_ok o ho, hok.int_ok o ho⟩
  obtain ⟨r, hr, hm⟩ := hok.onto o ho
  exact Finset.card_pos.2 ⟨r, by simp [fibre, hr, hm]⟩

/-- C03. The total interval is conserved. -/
theorem C03_interval_conserved
    (h32 : ∀ r < n, IsInt32 (ant1 r)) (hsent : ∀ r < n, time r < sentinel)
    (h : rowMapper sentinel n time interval ant1 ant2 flagRow secs = .ok out) :
    ∑ o ∈ Finset.range out.outRows, out.interval o = ∑ r ∈ Finset.range n, interval r := by
  have hok := (rowMapOK_of_ok h32 hsent h).2
  rw [← Finset.sum_fiberwise_of_maps_to (s := Finset.range n) (t := Finset.range out.outRows)
    (g := out.map) (fun r hr => Finset.mem_range.2 (hok.inRange r (Finset.mem_range.1 hr)))]
  exact Finset.sum_congr rfl fun o ho => hok.int_ok o (Finset.mem_range.1 ho)

/-- C04. Output times do not decrease. -/
theorem C04_output_sorted
    (h32 : ∀ r < n, IsInt32 (ant1 r)) (hsent : ∀ r < n, time r < sentinel)
    (h : rowMapper sentinel n time interval ant1 ant2 flagRow secs = .ok out) :
    ∀ o o', o ≤ o' → o' < out.outRows → out.time o ≤ out.time o' :=
  (rowMapOK_of_ok h32 hsent h).2.sorted

/-- C05. An output row is flagged (1) iff all rows mapped to it are flagged, and unflagged (0)
otherwise; without input flags there are no output flags. -/
theorem C05_flag_conjunction
    (h32 : ∀ r < n, IsInt32 (ant1 r)) (hsent : ∀ r < n, time r < sentinel)
    (h : rowMapper sentinel n time interval ant1 ant2 flagRow secs = .ok out) :
    (flagRow = none → out.flagRow = none) ∧
    ∀ f, flagRow = some f → ∃ g, out.flagRow = some g ∧
      ∀ o < out.outRows, (g o = 0 ∨ g o = 1) ∧
        (g o = 1 ↔ ∀ r ∈ fibre n out.map o, f r ≠ 0) := by
  have hok := (rowMapOK_of_ok h32 hsent h).2
  refine ⟨hok.flag_none, fun f hf => ?_⟩
  obtain ⟨g, hg, hgo⟩ := hok.flag_ok f hf
  refine ⟨g, hg, fun o ho => ?_⟩
  obtain ⟨h1, h0⟩ := hgo o ho
  by_cases hall : ∀ r < n, out.map r = o → f r ≠ 0
  · have := h1 hall
    refine ⟨Or.inr this, fun _ r hr => ?_, fun _ => this⟩
    simp only [fibre, Finset.mem_filter, Finset.mem_range] at hr
    exact hall r hr.1 hr.2
  · push Not at hall
    have := h0 hall
    refine ⟨Or.inl this, fun h => by omega, fun hr => ?_⟩
    obtain ⟨r, h1, h2, h3⟩ := hall
    exact absurd h3 (hr r (by simp [fibre, h1, h2]))

end

/-- C06. `row_mapper` raises `ValueError` exactly on duplicated (time, antenna1, antenna2). -/
theorem C06_value_error_iff_duplicate (n : Nat) (time interval : Nat → ℚ) (ant1 ant2 : Nat → Int)
    (flagRow : Option (Nat → Nat)) (secs sentinel : ℚ)
    (h32 : ∀ r < n, IsInt32 (ant1 r)) (hsent : ∀ r < n, time r < sentinel) :
    rowMapper sentinel n time interval ant1 ant2 flagRow secs = .error .valueError ↔
      ∃ r < n, ∃ q < n, r ≠ q ∧ time r = time q ∧ ant1 r = ant1 q ∧ ant2 r = ant2 q := by
  constructor
  · intro h
    by_contra hc
    obtain ⟨out, h1, _⟩ := rowMapper_ok (interval := interval) (flagRow := flagRow) (secs := secs)
      h32 hsent (fun r hr q hq h1 h2 h3 => by
        by_contra hne; exact hc ⟨r, hr, q, hq, hne, h1, h2, h3⟩)
    rw [h1] at h; cases h
  · rintro ⟨r, hr, q, hq, hne, h1, h2, h3⟩
    exact rowMapper_dup fun hd => hne (hd r hr q hq h1 h2 h3)

/-- C06. No other error is ever raised: the internal consistency errors are unreachable. -/
theorem C06_no_other_error (n : Nat) (time interval : Nat → ℚ) (ant1 ant2 : Nat → Int)
    (flagRow : Option (Nat → Nat)) (secs sentinel : ℚ)
    (h32 : ∀ r < n, IsInt32 (ant1 r)) (hsent : ∀ r < n, time r < sentinel) (e : PyErr)
    (h : rowMapper sentinel n time interval ant1 ant2 flagRow secs = .error e) :
    e = .valueError := by
  by_cases hd : NoDup n time ant1 ant2
  · obtain ⟨out, h1, _⟩ := rowMapper_ok (interval := interval) (flagRow := flagRow) (secs := secs)
      h32 hsent hd
    rw [h1] at h; cases h
  · rw [rowMapper_dup hd] at h; cases h; rfl

/-- A concrete table meeting the hypotheses of C02-C07: four rows, two baselines with a negative
antenna number, unsorted times, one flagged row. -/
example : ∃ out, rowMapper 1000 4 (fun r => [3, 1, 2, 1].getD r 0) (fun _ => 1)
    (fun r => [0, 0, -1, -1].getD r 0) (fun _ => 1) (some fun r => [0, 0, 1, 1].getD r 0) 2 = .ok out ∧
    (∀ r < 4, IsInt32 ([0, 0, -1, -1].getD r 0)) ∧
    (∀ r < 4, ([3, 1, 2, 1].getD r 0 : ℚ) < 1000) := by
  have h32 : ∀ r < 4, IsInt32 ([0, 0, -1, -1].getD r 0) := by unfold IsInt32; decide
  have hs : ∀ r < 4, ([3, 1, 2, 1].getD r 0 : ℚ) < 1000 := by decide +kernel
  obtain ⟨out, h, _⟩ := rowMapper_ok (n := 4) (time := fun r => [3, 1, 2, 1].getD r 0)
    (interval := fun _ => 1) (ant1 := fun r => [0, 0, -1, -1].getD r 0) (ant2 := fun _ => 1)
    (flagRow := some fun r => [0, 0, 1, 1].getD r 0) (secs := 2) h32 hs
    (by unfold NoDup; decide +kernel)
  exact ⟨out, h, h32, hs⟩

/-! ### C07 -/

section
variable {n : Nat} {time interval : Nat → ℚ} {ant1 ant2 : Nat → Int}
  {flagRow : Option (Nat → Nat)} {secs sentinel : ℚ} {out : RowMapOutput}

/-- C07 (partial). Two rows averaged together span at most `secs`, provided that on each baseline the
lower edges of the samples do not decrease with time (true when intervals do not vary wildly).
Missing: tables where a later sample starts before an earlier one; see `C07_violated`. -/
theorem C07_bins_fit_partial
    (h32 : ∀ r < n, IsInt32 (ant1 r)) (hsent : ∀ r < n, time r < sentinel)
    (hmono : ∀ r < n, ∀ q < n, ant1 r = ant1 q → ant2 r = ant2 q → time r < time q →
      lowEdge time interval r ≤ lowEdge time interval q)
    (h : rowMapper sentinel n time interval ant1 ant2 flagRow secs = .ok out)
    (r q : Nat) (hr : r < n) (hq : q < n) (hlt : time r < time q) (hm : out.map r = out.map q) :
    highEdge time interval q - lowEdge time interval r ≤ secs := by
  have hok := (rowMapOK_of_ok h32 hsent h).2
  -- the first sample of the baseline
  obtain ⟨r0, hr0, hmin⟩ := Finset.exists_min_image
    ((Finset.range n).filter fun p => ant1 p = ant1 r ∧ ant2 p = ant2 r) time
    ⟨r, by simp [hr]⟩
  simp only [Finset.mem_filter, Finset.mem_range] at hr0 hmin
  have h1 := span_of_map_eq hok hmono hr0.1 hr hq hr0.2.1 hr0.2.2
    (fun p hp ha hb => hmin p ⟨hp, ha, hb⟩) hlt hm
  have h2 : lowEdge time interval r0 ≤ lowEdge time interval r := by
    rcases (hmin r ⟨hr, rfl, rfl⟩).lt_or_eq with hlt' | he
    · exact hmono r0 hr0.1 r hr hr0.2.1 hr0.2.2 hlt'
    · have := (rowMapOK_of_ok h32 hsent h).1 r0 hr0.1 r hr he hr0.2.1 hr0.2.2
      rw [this]
  linarith

end

/-- C07 is violated when intervals vary: with `secs = 2` the second and third sample below share a
bin although together they span 5.3 s. -/
theorem C07_violated : ∃ (time interval : Nat → ℚ) (out : RowMapOutput),
    rowMapper 1000 3 time interval (fun _ => 0) (fun _ => 1) none 2 = .ok out ∧
    time 1 < time 2 ∧ out.map 1 = out.map 2 ∧
    highEdge time interval 2 - lowEdge time interval 1 > 2 := by
  obtain ⟨out, h, hok⟩ := rowMapper_ok (n := 3) (time := fun r => [0, 1, 6/5].getD r 0)
    (interval := fun r => [1, 10, 1/5].getD r 0) (ant1 := fun _ => 0) (ant2 := fun _ => 1)
    (flagRow := none) (secs := 2) (sentinel := 1000)
    (by unfold IsInt32; decide) (by decide +kernel) (by unfold NoDup; decide +kernel)
  refine ⟨_, _, out, h, by decide +kernel, ?_, by decide +kernel⟩
  obtain ⟨blInv, timeInv, ntime, rl, hbl, ht, htl, hto, hrl, hmap⟩ := hok.bins
  have h01 := (ht 0 (by omega) 1 (by omega)).2 (by decide +kernel)
  have h12 := (ht 1 (by omega) 2 (by omega)).2 (by decide +kernel)
  have h2 := htl 2 (by omega)
  have hall : ∀ t < ntime, t = timeInv 0 ∨ t = timeInv 1 ∨ t = timeInv 2 := by
    intro t htn
    obtain ⟨r, hr, he⟩ := hto t htn
    rcases (by omega : r = 0 ∨ r = 1 ∨ r = 2) with rfl | rfl | rfl <;> simp [he]
  have a0 := hall 0 (by omega)
  have a1 := hall 1 (by omega)
  have a2 := hall 2 (by omega)
  have hn3 : ntime = 3 := by
    by_contra hne
    have := hall 3 (by omega)
    omega
  have hb : ∀ r < 3, blInv r = blInv 1 := fun r hr => (hbl r hr 1 (by omega)).2 ⟨rfl, rfl⟩
  have hT : ∀ r < 3, timeInv r = r := by
    intro r hr
    rcases (by omega : r = 0 ∨ r = 1 ∨ r = 2) with rfl | rfl | rfl <;> omega
  have hrl' : rl (blInv 1) = fun t => if t < 3 then some t else none := by
    funext t
    split
    · rename_i h3; exact (hrl _ _ _).2 ⟨h3, hb t h3, hT t h3⟩
    · rename_i h3
      by_contra hc
      obtain ⟨r, hr⟩ := Option.ne_none_iff_exists'.1 hc
      obtain ⟨h4, _, h5⟩ := (hrl _ _ _).1 hr
      have := hT r h4
      omega
  refine (hmap 1 (by omega) 2 (by omega)).2 ⟨(hb 2 (by omega)).symm, ?_⟩
  rw [hb 2 (by omega), hT 1 (by omega), hT 2 (by omega), hrl', hn3]
  decide +kernel

/-! ### C08 -/

/-- C08 (partial). What the code really does: rows `r`, `q` of one baseline (`r` earlier) are averaged
together iff the upper edge of `q` is within `secs` of the lower edge of the *first* sample `r0` of
the baseline. Hence all but the first bin hold a single sample; the full property, that later bins are
filled again, is refuted by `C08_violated`. -/
theorem C08_sharing_partial {n : Nat} {time interval : Nat → ℚ} {ant1 ant2 : Nat → Int}
    {flagRow : Option (Nat → Nat)} {secs sentinel : ℚ} {out : RowMapOutput}
    (h32 : ∀ r < n, IsInt32 (ant1 r)) (hsent : ∀ r < n, time r < sentinel)
    (hmono : ∀ r < n, ∀ q < n, ant1 r = ant1 q → ant2 r = ant2 q → time r < time q →
      lowEdge time interval r ≤ lowEdge time interval q ∧
      highEdge time interval r ≤ highEdge time interval q)
    (h : rowMapper sentinel n time interval ant1 ant2 flagRow secs = .ok out)
    (r0 r q : Nat) (hr0 : r0 < n) (hr : r < n) (hq : q < n)
    (h0 : ant1 r0 = ant1 r ∧ ant2 r0 = ant2 r)
    (hfirst : ∀ p < n, ant1 p = ant1 r → ant2 p = ant2 r → time r0 ≤ time p)
    (hbl : ant1 r = ant1 q ∧ ant2 r = ant2 q) (hlt : time r < time q) :
    out.map r = out.map q ↔ highEdge time interval q - lowEdge time interval r0 ≤ secs := by
  have hok := (rowMapOK_of_ok h32 hsent h).2
  have hm1 := fun r hr q hq ha hb hl => (hmono r hr q hq ha hb hl).1
  have hm2 := fun r hr q hq ha hb hl => (hmono r hr q hq ha hb hl).2
  exact ⟨fun hm => span_of_map_eq hok hm1 hr0 hr hq h0.1 h0.2 hfirst hlt hm,
    fun hle => map_eq_of_span hok hm1 hm2 hr0 hr hq h0.1 h0.2 hfirst hbl.1 hbl.2 hlt hle⟩

/-- C08 (partial): on `n ≥ k` regular samples of width `d` with bin width `k d`, the code makes
`n - k + 1` bins (one bin of `k` samples, then one bin per sample) instead of `ceil(n / k)`. -/
theorem C08_regular_bin_count_partial (n k : Nat) (d sentinel : ℚ) (hd : 0 < d) (hk : 1 ≤ k)
    (hkn : k ≤ n) (hsent : ∀ r < n, (r : ℚ) * d < sentinel) :
    ∃ out, rowMapper sentinel n (fun r => (r : ℚ) * d) (fun _ => d) (fun _ => 0) (fun _ => 1) none
      (k * d) = .ok out ∧ out.outRows = n - k + 1 := by
  have h32 : ∀ r < n, IsInt32 ((fun _ => 0 : Nat → Int) r) := by intro r _; unfold IsInt32; constructor <;> norm_num
  have hmul : ∀ a b : Nat, (a : ℚ) * d < b * d ↔ a < b := by
    intro a b; rw [mul_lt_mul_iff_left₀ hd]; exact Nat.cast_lt
  obtain ⟨out, h, hok⟩ := rowMapper_ok (n := n) (time := fun r => (r : ℚ) * d)
    (interval := fun _ => d) (ant1 := fun _ => 0) (ant2 := fun _ => 1)
    (flagRow := none) (secs := k * d) (sentinel := sentinel) h32 hsent
    (by
      intro r _ q _ he _ _
      have := mul_right_cancel₀ hd.ne' he
      exact_mod_cast this)
  refine ⟨out, h, ?_⟩
  have hshare : ∀ r q, r < q → q < n → (out.map r = out.map q ↔ q < k) := by
    intro r q hrq hq
    rw [C08_sharing_partial h32 hsent (fun r _ q _ _ _ hl => by
        simp only [lowEdge, highEdge]; constructor <;> linarith) h 0 r q (by omega) (by omega) hq
        ⟨rfl, rfl⟩ (fun p _ _ _ => by
          simp only [Nat.cast_zero, zero_mul]; positivity) ⟨rfl, rfl⟩ ((hmul r q).2 hrq)]
    simp only [lowEdge, highEdge, Nat.cast_zero, zero_mul, zero_sub, sub_neg_eq_add]
    have e : (q : ℚ) * d + d / 2 + d / 2 = ((q + 1 : Nat) : ℚ) * d := by push_cast; ring
    rw [e, mul_le_mul_iff_left₀ hd, Nat.cast_le]
    omega
  -- the output rows are the images of k - 1, ..., n - 1
  have himg : Finset.range out.outRows = (Finset.Ico (k - 1) n).image out.map := by
    ext o
    simp only [Finset.mem_range, Finset.mem_image, Finset.mem_Ico]
    constructor
    · intro ho
      obtain ⟨r, hr, hm⟩ := hok.onto o ho
      by_cases hrk : k - 1 ≤ r
      · exact ⟨r, ⟨hrk, hr⟩, hm⟩
      · exact ⟨k - 1, ⟨by omega, by omega⟩,
          by rw [← hm]; exact ((hshare r (k - 1) (by omega) (by omega)).2 (by omega)).symm⟩
    · rintro ⟨r, ⟨_, hr⟩, rfl⟩
      exact hok.inRange r hr
  have hcard := congrArg Finset.card himg
  rw [Finset.card_range, Finset.card_image_of_injOn, Nat.card_Ico] at hcard
  · omega
  · intro a ha b hb he
    simp only [Finset.coe_Ico, Set.mem_Ico] at ha hb
    rcases lt_trichotomy a b with hl | he' | hl
    · have := (hshare a b hl hb.2).1 he; omega
    · exact he'
    · have := (hshare b a hl ha.2).1 he.symm; omega

/-- C08 is violated: six samples of one second with two-second bins give five output rows, not
three. -/
theorem C08_violated : ∃ (n k : Nat) (d : ℚ) (out : RowMapOutput), 0 < d ∧ 1 ≤ k ∧
    rowMapper 1000 n (fun r => (r : ℚ) * d) (fun _ => d) (fun _ => 0) (fun _ => 1) none (k * d) =
      .ok out ∧ out.outRows ≠ (n + k - 1) / k := by
  obtain ⟨out, h1, h2⟩ := C08_regular_bin_count_partial 6 2 1 1000 (by decide +kernel) (by omega)
    (by omega) (by
      intro r hr
      have : (r : ℚ) ≤ 6 := by exact_mod_cast hr.le
      linarith)
  exact ⟨6, 2, 1, out, by decide +kernel, by omega, h1, by omega⟩

/-- The hypotheses of `C07_bins_fit_partial` and `C08_sharing_partial` hold for regular samples. -/
example : ∀ r < (6 : Nat), ∀ q < (6 : Nat), ((r : ℚ) * 1 < q * 1) →
    lowEdge (fun r => (r : ℚ) * 1) (fun _ => 1) r ≤ lowEdge (fun r => (r : ℚ) * 1) (fun _ => 1) q ∧
    highEdge (fun r => (r : ℚ) * 1) (fun _ => 1) r ≤ highEdge (fun r => (r : ℚ) * 1) (fun _ => 1) q := by
  intro r _ q _ h
  simp only [lowEdge, highEdge]; constructor <;> linarith

/-! ### C09 -/

/-- C09. `unique` returns the sorted distinct values, the inverse, the first positions and the
number of occurrences. -/
theorem C09_unique {α : Type*} [LinearOrder α] (n : Nat) (data : Nat → α) :
    (uniqueInternal n data).uniq.Pairwise (· < ·) ∧
    (∀ v, v ∈ (uniqueInternal n data).uniq ↔ ∃ r < n, data r = v) ∧
    (∀ r < n, (uniqueInternal n data).uniq[(uniqueInternal n data).inv r]? = some (data r)) ∧
    (uniqueInternal n data).idx.length = (uniqueInternal n data).uniq.length ∧
    (∀ (k : Nat) p, (uniqueInternal n data).idx[k]? = some p →
      p < n ∧ (uniqueInternal n data).uniq[k]? = some (data p) ∧ ∀ q < p, data q ≠ data p) ∧
    (uniqueInternal n data).counts.length = (uniqueInternal n data).uniq.length ∧
    (∀ (k : Nat) v, (uniqueInternal n data).uniq[k]? = some v →
      (uniqueInternal n data).counts[k]? = some ((List.range n).countP fun q => data q = v)) := by
  have h := uniqueInternal_ok n data
  refine ⟨h.sorted, ?_, h.inv_ok, h.idx_len, ?_, h.counts_len, h.counts_ok⟩
  · intro v
    constructor
    · intro hv
      obtain ⟨k, hk, rfl⟩ := List.mem_iff_getElem.1 hv
      obtain ⟨r, hr, he⟩ := h.inv_onto hk
      refine ⟨r, hr, ?_⟩
      have := h.inv_ok r hr
      rw [he, List.getElem?_eq_getElem hk] at this
      exact (Option.some.inj this).symm
    · rintro ⟨r, hr, rfl⟩
      exact List.mem_of_getElem? (h.inv_ok r hr)
  · intro k p hp
    obtain ⟨h1, h2, h3⟩ := h.idx_ok k p hp
    exact ⟨h1, h2, fun q hq he => by have := h3 q (by omega) he; omega⟩

/-- C09. The counts add up to the length of the data. -/
theorem C09_counts_sum {α : Type*} [LinearOrder α] (n : Nat) (data : Nat → α) :
    (uniqueInternal n data).counts.sum = n := by
  have h := uniqueInternal_ok n data
  have hc : (uniqueInternal n data).counts =
      (uniqueInternal n data).uniq.map fun v => (List.range n).countP fun q => data q = v := by
    apply List.ext_getElem?
    intro k
    rw [List.getElem?_map]
    cases hk : (uniqueInternal n data).uniq[k]? with
    | none =>
      rw [List.getElem?_eq_none_iff, ← h.counts_len] at hk
      simp [hk]
    | some v => simp [h.counts_ok k v hk]
  have hnd : (uniqueInternal n data).uniq.Nodup := h.sorted.imp fun h => h.ne
  have hmem : ∀ q ∈ List.range n, data q ∈ (uniqueInternal n data).uniq := fun q hq =>
    List.mem_of_getElem? (h.inv_ok q (List.mem_range.1 hq))
  rw [hc]
  revert hmem hnd
  generalize (uniqueInternal n data).uniq = u
  intro hnd
  have : ∀ l : List Nat, (∀ q ∈ l, data q ∈ u) →
      (u.map fun v => l.countP fun q => data q = v).sum = l.length := by
    intro l
    induction l with
    | nil => intro _; simp
    | cons a l ih =>
      intro hl
      have h1 := ih fun q hq => hl q (List.mem_cons_of_mem _ hq)
      have h2 := hl a List.mem_cons_self
      simp only [List.countP_cons, List.length_cons]
      have : (u.map fun v => List.countP (fun q => decide (data q = v)) l +
          if decide (data a = v) = true then 1 else 0).sum =
          (u.map fun v => List.countP (fun q => decide (data q = v)) l).sum +
          (u.map fun v => if data a = v then 1 else 0).sum := by
        rw [← List.sum_map_add]; simp
      rw [this, h1]
      congr 1
      clear h1 ih this hl
      induction u with
      | nil => simp at h2
      | cons b u ihu =>
        rw [List.nodup_cons] at hnd
        simp only [List.map_cons, List.sum_cons]
        by_cases hb : data a = b
        · have : (u.map fun v => if data a = v then 1 else 0).sum = 0 := by
            apply List.sum_eq_zero
            intro x hx
            obtain ⟨v, hv, rfl⟩ := List.mem_map.1 hx
            rw [if_neg]
            rintro rfl
            exact hnd.1 (hb ▸ hv)
          rw [if_pos hb, this]
        · rw [if_neg hb, Nat.zero_add]
          exact ihu hnd.2 (by simpa [hb] using h2)
  intro hmem
  simpa using this (List.range n) hmem

/-! ### C10 -/

/-- C10. Two rows get the same baseline index iff both antennas agree, and the unique baselines hold
the row's own antenna pair; for all int32 antenna numbers, negative ones included. -/
theorem C10_baseline_packing (n : Nat) (ant1 ant2 : Nat → Int)
    (h1 : ∀ r < n, IsInt32 (ant1 r)) :
    (∀ r < n, ∀ q < n, (uniqueBaselines n ant1 ant2).inv r = (uniqueBaselines n ant1 ant2).inv q ↔
      ant1 r = ant1 q ∧ ant2 r = ant2 q) ∧
    (∀ r < n, (uniqueBaselines n ant1 ant2).uniq[(uniqueBaselines n ant1 ant2).inv r]? =
      some (ant1 r, ant2 r)) := by
  have h := uniqueInternal_ok n (fun r => pack32 (ant1 r) (ant2 r))
  constructor
  · intro r hr q hq
    rw [← pack32_inj (h1 r hr) (h1 q hq)]
    exact h.inv_eq_iff hr hq
  · intro r hr
    have := h.inv_ok r hr
    simp only [uniqueBaselines, List.getElem?_map, this, Option.map_some, unpack32_pack32 (h1 r hr)]

/-- C10. The packed value is an int64, so the view does not overflow, and unpacking inverts packing. -/
theorem C10_pack_roundtrip (a b : Int) (ha : IsInt32 a) (hb : IsInt32 b) :
    unpack32 (pack32 a b) = (a, b) ∧ -2 ^ 63 ≤ pack32 a b ∧ pack32 a b < 2 ^ 63 := by
  refine ⟨unpack32_pack32 ha, ?_⟩
  unfold IsInt32 pack32 at *
  omega

example : IsInt32 (-1) ∧ unpack32 (pack32 (-1) (-7)) = (-1, -7) := by
  refine ⟨by unfold IsInt32; decide, by decide⟩

end Verif.Averaging
