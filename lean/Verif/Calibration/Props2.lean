/-
Property C26 (chunkify_rows) and its use in C24.
-/
import Verif.Calibration.Props
import Verif.Calibration.LemmasChunk

set_option autoImplicit false

namespace Verif.Calibration

variable {α : Type*} [LinearOrder α]

/-- C26. `ut` is the strictly increasing list of the distinct times. The row chunks sum to the number of
rows; there is one chunk per `u` distinct times, holding their rows; for a sorted time column the
bin `[indices[k], indices[k] + counts[k])` consists of exactly the rows with time `ut[k]`. -/
theorem C26_chunkify_rows (time : List α) (u : Nat) (hu : 1 ≤ u) :
    ∃ (out : RowChunks) (ut : List α), chunkifyRows time u = .ok out ∧
      ut.Pairwise (· < ·) ∧ (∀ x, x ∈ ut ↔ x ∈ time) ∧
      out.timeBinCounts = ut.map (fun x => time.count x) ∧
      out.timeBinIndices.length = ut.length ∧
      out.rowChunks.sum = time.length ∧
      (∀ b, b < out.rowChunks.length ↔ b * u < ut.length) ∧
      (∀ b, b < out.rowChunks.length →
        out.rowChunks.getD b 0 = ((out.timeBinCounts.drop (b * u)).take u).sum) ∧
      (time.Pairwise (· ≤ ·) → ∀ (k : Nat) (hk : k < ut.length) (r : Nat) (hr : r < time.length),
        time[r] = ut[k] ↔
          out.timeBinIndices.getD k 0 ≤ r ∧
          r < out.timeBinIndices.getD k 0 + out.timeBinCounts.getD k 0) := by
  refine ⟨_, uvals time, by unfold chunkifyRows; simp only [dif_pos (show 0 < u from hu)]; rfl,
    uvals_sorted time, mem_uvals time, unique_map time, ?_, ?_, ?_, ?_, ?_⟩
  · simp only
    rw [binIndices_length, unique_map, List.length_map]
  · simp only
    rw [sliceSums_sum, unique_map, counts_sum]
  · intro b
    simp only [sliceSums_length, unique_map, List.length_map]
  · intro b hb
    simp only [sliceSums_length] at hb
    simp only [List.getD]
    rw [sliceSums_get, if_pos hb]
    simp only [Option.getD_some]
    have := psum_drop ((npUniqueCounts time).map Prod.snd) (b * u) u
    unfold psum at this ⊢
    rw [this]
    congr 3
    ring
  · intro hs k hk r hr
    simp only
    rw [binIndices_get _ _ (by simpa [unique_map] using hk), unique_map]
    have hget : ∀ k (hk : k < (uvals time).length),
        ((uvals time).map fun x => time.count x).getD k 0 = time.count (uvals time)[k] := by
      intro k hk
      simp [List.getD, hk]
    have hfwd : ∀ k (hk : k < (uvals time).length),
        psum ((uvals time).map fun x => time.count x) k ≤ r →
        r < psum ((uvals time).map fun x => time.count x) k + time.count (uvals time)[k] →
        time[r] = (uvals time)[k] := by
      intro k hk h1 h2
      have := blocks_get (uvals time) (fun x => time.count x) k hk r h1 h2
      rw [← blocks_eq time hs, List.getElem?_eq_getElem hr] at this
      exact Option.some.inj this
    constructor
    · intro h
      obtain ⟨k', hk', h1, h2⟩ := exists_block ((uvals time).map fun x => time.count x) r
        (by rw [counts_sum]; exact hr)
      rw [List.length_map] at hk'
      have h2' := h2
      rw [hget k' hk'] at h2'
      have e := hfwd k' hk' h1 h2'
      rw [h] at e
      have hnd : (uvals time).Nodup := (uvals_sorted time).imp fun h => ne_of_lt h
      have : k = k' := (List.Nodup.getElem_inj_iff hnd).1 e
      subst this
      exact ⟨h1, h2⟩
    · rintro ⟨h1, h2⟩
      rw [hget k hk] at h2
      exact hfwd k hk h1 h2

/-- C26. A chunk size of zero is an error. -/
theorem C26_zero_chunk (time : List α) : chunkifyRows time 0 = .error .valueError := rfl

/-- Bins given by running sums are disjoint, start at 0, and blocks of `u` of them cover the row
chunks. -/
theorem C24_chunks_of_chunkify (time : List α) (u : Nat) (hu : 1 ≤ u) (out : RowChunks)
    (h : chunkifyRows time u = .ok out) (idx cnt : Nat → Nat)
    (hidx : idx = fun t => out.timeBinIndices.getD t 0) (hcnt : cnt = fun t => out.timeBinCounts.getD t 0)
    (n : Nat) (hn : n = out.timeBinIndices.length) (b : Nat) (hb : b < out.rowChunks.length)
    (t0 nt r0 : Nat) (ht0 : t0 = b * u) (hnt : nt = min u (n - t0)) (hr0 : r0 = (out.rowChunks.take b).sum) :
    IsMin n idx 0 ∧ Disjoint' n idx cnt ∧ t0 + nt ≤ n ∧ IsMin nt (fun t => idx (t0 + t)) r0 ∧
      ∀ row, row < out.rowChunks.getD b 0 ↔ ∃ t < nt, InBin idx cnt (t0 + t) (r0 + row) := by
  unfold chunkifyRows at h
  simp only [dif_pos (show 0 < u from hu)] at h
  cases h
  simp only at *
  generalize hl : (npUniqueCounts time).map Prod.snd = l at *
  rw [binIndices_length] at hn
  subst hn
  rw [sliceSums_length] at hb
  have hidx' : ∀ t < l.length, idx t = psum l t := fun t ht => by rw [hidx]; exact binIndices_get l t ht
  have hr0' : r0 = psum l t0 := by
    rw [hr0, ht0]; exact sliceSums_psum u hu l b
  have hpos : 0 < nt := by omega
  have hle : t0 + nt ≤ l.length := by omega
  have hbin : ∀ t < l.length, ∀ row, InBin idx cnt t row ↔ psum l t ≤ row ∧ row < psum l (t + 1) := by
    intro t ht row
    unfold InBin
    rw [hidx' t ht, hcnt, psum_succ]
  refine ⟨⟨⟨0, by omega, ?_⟩, fun t _ => Nat.zero_le _⟩, ?_, hle, ⟨⟨0, hpos, ?_⟩, ?_⟩, ?_⟩
  · rw [hidx' 0 (by omega), psum_zero]
  · intro t ht t' ht' row h1 h2
    rw [hbin t ht] at h1
    rw [hbin t' ht'] at h2
    rcases Nat.lt_trichotomy t t' with h | h | h
    · have := psum_mono l (show t + 1 ≤ t' by omega); omega
    · exact h
    · have := psum_mono l (show t' + 1 ≤ t by omega); omega
  · simp only [Nat.add_zero]
    rw [hidx' t0 (by omega), hr0']
  · intro t ht
    simp only
    rw [hidx' (t0 + t) (by omega), hr0']
    exact psum_mono l (by omega)
  · intro row
    have hchunk : (sliceSums u hu l).getD b 0 = psum l (t0 + nt) - psum l t0 := by
      rw [List.getD, sliceSums_get, if_pos hb, Option.getD_some, ht0]
      congr 1
      rcases Nat.le_total u (l.length - t0) with h | h
      · rw [hnt, min_eq_left h]; congr 1; ring
      · rw [hnt, min_eq_right h, psum_all l (show l.length ≤ (b + 1) * u by rw [Nat.add_mul]; omega),
          psum_all l (by omega)]
    rw [hchunk, hr0']
    have hmono := psum_mono l (show t0 ≤ t0 + nt by omega)
    constructor
    · intro hrow
      -- the first bin end above the row
      have hex : ∃ t, psum l t0 + row < psum l (t0 + t) := ⟨nt, by omega⟩
      classical
      have hs := Nat.find_spec hex
      have hmin := fun m => Nat.find_min hex (m := m)
      have hlt : Nat.find hex ≤ nt := Nat.find_min' hex (by omega)
      cases hf : Nat.find hex with
      | zero => rw [hf] at hs; simp only [Nat.add_zero] at hs; omega
      | succ t =>
        rw [hf] at hs hlt
        have h3 := hmin t (by omega)
        refine ⟨t, by omega, ?_⟩
        rw [hbin _ (by omega)]
        exact ⟨by omega, hs⟩
    · rintro ⟨t, ht, hin⟩
      rw [hbin _ (by omega)] at hin
      have := psum_mono l (show t0 + t + 1 ≤ t0 + nt by omega)
      omega

/-- C24. Corrupting each chunk of `chunkify_rows` separately gives the rows of the whole result. -/
theorem C24_corrupt_all_chunks {K : Type*} [Field K] [StarRing K] (time : List α) (u : Nat) (hu : 1 ≤ u)
    (out : RowChunks) (h : chunkifyRows time u = .ok out) (idx cnt : Nat → Nat)
    (hidx : idx = fun t => out.timeBinIndices.getD t 0) (hcnt : cnt = fun t => out.timeBinCounts.getD t 0)
    (n : Nat) (hn : n = out.timeBinIndices.length) (b : Nat) (hb : b < out.rowChunks.length)
    (t0 nt r0 : Nat) (ht0 : t0 = b * u) (hnt : nt = min u (n - t0)) (hr0 : r0 = (out.rowChunks.take b).sum)
    (ant1 ant2 : Nat → Nat) (nchan ndir : Nat) (J : Jones K) (M : ModelVis K) (V Vb : Vis K)
    (hV : corruptVis n idx cnt ant1 ant2 nchan ndir J M = .ok V)
    (hVb : corruptVis nt (fun t => idx (t0 + t)) (fun t => cnt (t0 + t)) (fun r => ant1 (r0 + r))
      (fun r => ant2 (r0 + r)) nchan ndir (J.dropTimes t0) (M.dropRows r0) = .ok Vb)
    (row : Nat) (hrow : row < out.rowChunks.getD b 0) (nu : Nat) (hnu : nu < nchan) :
    Vb.at row nu = V.at (r0 + row) nu := by
  obtain ⟨h1, h2, h3, h4, h5⟩ := C24_chunks_of_chunkify time u hu out h idx cnt hidx hcnt n hn b hb t0 nt r0
    ht0 hnt hr0
  obtain ⟨t, ht, hin⟩ := (h5 row).1 hrow
  exact C24_corrupt_chunk ant1 ant2 nchan ndir J M V Vb h1 h2 h3 h4 hV hVb t ht row hin nu hnu

/-- A sorted column with repeated times. -/
example : ∃ out, chunkifyRows [1, 1, 2, 5, 5, 5] 2 = .ok out ∧ out.rowChunks.sum = 6 ∧
    out.rowChunks.length = 2 := by
  obtain ⟨out, ut, h1, h2, h3, h4, h5, h6, h7, _⟩ := C26_chunkify_rows [1, 1, 2, 5, 5, 5] 2 (by omega)
  refine ⟨out, h1, by simpa using h6, ?_⟩
  have hlen : ut.length = 3 := by
    have hnd : ut.Nodup := h2.imp fun h => ne_of_lt h
    have : ut.Perm [1, 2, 5] := (List.perm_ext_iff_of_nodup hnd (by decide)).2 (by
      intro a; rw [h3]; simp)
    simpa using this.length_eq
  have a1 := (h7 1).2 (by omega)
  have a2 := mt (h7 2).1 (by omega)
  omega

end Verif.Calibration
