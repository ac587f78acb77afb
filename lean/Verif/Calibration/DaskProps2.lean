/-
Property C110, continued: refusals, `compute_and_corrupt_vis`, `compute_jhj`, `compute_jhr`, chunks from
`chunkify_rows`, and the cases in which chunking changes the result.
-/
import Verif.Calibration.DaskProps
import Verif.Calibration.Props2

set_option autoImplicit false

namespace Verif.Calibration

open Complex

/-! ### Chunks made by `chunkify_rows` fit -/

theorem sliceSums_ones_get (u : Nat) (hu : 0 < u) (n b : Nat) (hb : b * u < n) :
    blockSize (sliceSums u hu (List.replicate n 1)) b = min u (n - b * u) := by
  have hp : ∀ k, psum (List.replicate n 1) k = min k n := fun k => by simp [psum, List.take_replicate]
  rw [blockSize, List.getD, sliceSums_get, if_pos (by simpa using hb), Option.getD_some, hp, hp, Nat.add_mul]
  omega

theorem sliceSums_ones_off (u : Nat) (hu : 0 < u) (n b : Nat) (hb : b * u < n) :
    blockOff (sliceSums u hu (List.replicate n 1)) b = b * u := by
  have hp : ∀ k, psum (List.replicate n 1) k = min k n := fun k => by simp [psum, List.take_replicate]
  have := sliceSums_psum u hu (List.replicate n 1) b
  rw [hp] at this
  unfold psum at this
  unfold blockOff
  omega

/-- C110. The row chunks, indices and counts of `chunkify_rows(time, u)` fit time chunks of `u` times each
(the last one possibly shorter). -/
theorem C110_chunkify_fits {α : Type*} [LinearOrder α] (time : List α) (hne : time ≠ []) (u : Nat) (hu : 0 < u)
    (out : RowChunks) (h : chunkifyRows time u = .ok out) :
    ∃ tChunks : List Nat, tChunks.sum = out.timeBinIndices.length ∧
      (∀ b < tChunks.length, tChunks.getD b 0 = min u (out.timeBinIndices.length - b * u)) ∧
      Fits (fun t => out.timeBinIndices.getD t 0) (fun t => out.timeBinCounts.getD t 0) tChunks out.rowChunks := by
  set n := out.timeBinIndices.length with hn
  have hlen : ∀ b, b < out.rowChunks.length ↔ b * u < n := by
    have h' := h
    unfold chunkifyRows at h'
    simp only [dif_pos hu] at h'
    cases h'
    intro b
    rw [sliceSums_length, hn, binIndices_length]
  have hT : ∀ b, b < (sliceSums u hu (List.replicate n 1)).length ↔ b * u < n := by
    intro b; rw [sliceSums_length]; simp
  have hL : (sliceSums u hu (List.replicate n 1)).length = out.rowChunks.length := by
    apply Nat.le_antisymm
    · by_contra hc
      have := (hlen _).2 ((hT _).1 (show out.rowChunks.length < _ by omega))
      omega
    · by_contra hc
      have := (hT _).2 ((hlen _).1 (show (sliceSums u hu (List.replicate n 1)).length < _ by omega))
      omega
  have hsum : (sliceSums u hu (List.replicate n 1)).sum = n := by rw [sliceSums_sum]; simp
  have hnpos : 0 < n := by
    obtain ⟨out', ut, h1, _, h3, _, h5, _⟩ := C26_chunkify_rows time u hu
    rw [h] at h1
    cases h1
    rw [hn, h5]
    obtain ⟨x, hx⟩ := List.exists_mem_of_ne_nil _ hne
    exact List.length_pos_of_mem ((h3 x).2 hx)
  have key := fun b (hb : b < out.rowChunks.length) =>
    C24_chunks_of_chunkify time u hu out h _ _ rfl rfl n hn b hb _ _ _ rfl rfl rfl
  refine ⟨sliceSums u hu (List.replicate n 1), hsum, ?_, hL, ?_, ?_, ?_⟩
  · intro b hb
    exact sliceSums_ones_get u hu n b ((hT b).1 hb)
  · rw [hsum]
    exact (key 0 ((hlen 0).2 (by omega))).1
  · rw [hsum]
    exact (key 0 ((hlen 0).2 (by omega))).2.1
  · intro i hi
    have hi' := (hT i).1 hi
    obtain ⟨_, _, _, k4, k5⟩ := key i ((hlen i).2 hi')
    rw [sliceSums_ones_get u hu n i hi', sliceSums_ones_off u hu n i hi']
    exact ⟨k4, k5⟩

/-- A table with several times and chunks. -/
example : ∃ out : RowChunks, chunkifyRows [1, 1, 2, 5, 5, 5] 2 = .ok out ∧ ∃ t,
    Fits (fun t => out.timeBinIndices.getD t 0) (fun t => out.timeBinCounts.getD t 0) t out.rowChunks := by
  obtain ⟨out, _, h, _⟩ := C26_chunkify_rows [1, 1, 2, 5, 5, 5] 2 (by omega)
  obtain ⟨t, _, _, h2⟩ := C110_chunkify_fits _ (by simp) 2 (by omega) out h
  exact ⟨out, h, t, h2⟩

/-! ### Refusals -/

section
variable {K : Type*} [Field K] [StarRing K]
variable {tChunks rowChunks chanChunks corrChunks jAnt jDir mDir : List Nat} {idx cnt ant1 ant2 : Nat → Nat}

/-- C110. An axis is whole when its first chunk holds all of it. -/
theorem checkWhole_error {l : List Nat} (hne : l ≠ []) (h : l.getD 0 0 ≠ l.sum) :
    checkWhole l = .error .valueError := by
  cases l with
  | nil => exact absurd rfl hne
  | cons c l => exact if_pos h

theorem checkWhole_cases (l : List Nat) (hne : l ≠ []) :
    (checkWhole l = .ok () ∧ l.getD 0 0 = l.sum) ∨ (checkWhole l = .error .valueError ∧ l.getD 0 0 ≠ l.sum) := by
  by_cases h : l.getD 0 0 = l.sum
  · exact Or.inl ⟨checkWhole_ok.2 ⟨hne, h⟩, h⟩
  · exact Or.inr ⟨checkWhole_error hne h, h⟩

/-- C110. Jones terms chunked over antenna or direction, or a model chunked over direction, are refused
with `ValueError` before any block is computed. -/
theorem C110_refuses (hA : jAnt ≠ []) (hJ : jDir ≠ []) (hM : mDir ≠ []) (J : Jones K) (D : Vis K) (F : Flags)
    (M : ModelVis K) :
    ((jAnt.getD 0 0 ≠ jAnt.sum ∨ jDir.getD 0 0 ≠ jDir.sum) →
      daskCorrectVis tChunks rowChunks chanChunks corrChunks jAnt jDir idx cnt ant1 ant2 J D F = .error .valueError) ∧
    ((jAnt.getD 0 0 ≠ jAnt.sum ∨ jDir.getD 0 0 ≠ jDir.sum ∨ mDir.getD 0 0 ≠ mDir.sum) →
      daskResidualVis tChunks rowChunks chanChunks corrChunks jAnt jDir mDir idx cnt ant1 ant2 J D F M =
        .error .valueError ∧
      ∀ mode, checkType J.ndim M.ndim "model" = .ok mode →
        daskCorruptVis tChunks rowChunks chanChunks corrChunks jAnt jDir mDir idx cnt ant1 ant2 J M =
          .error .valueError) := by
  unfold daskCorrectVis daskResidualVis daskCorruptVis
  rcases checkWhole_cases jAnt hA with ⟨h1, h1'⟩ | ⟨h1, h1'⟩ <;>
    rcases checkWhole_cases jDir hJ with ⟨h2, h2'⟩ | ⟨h2, h2'⟩ <;>
    rcases checkWhole_cases mDir hM with ⟨h3, h3'⟩ | ⟨h3, h3'⟩ <;>
    rw [h1, h2, h3] <;>
    refine ⟨fun h => ?_, fun h => ⟨?_, fun mode hm => ?_⟩⟩ <;>
    first
      | rfl
      | (rw [hm]; done)
      | (exfalso; rcases h with h | h | h <;> exact h (by assumption))
      | (exfalso; rcases h with h | h <;> exact h (by assumption))

/-- C110. The lazy calls refuse exactly the mode combinations the numpy functions refuse. -/
theorem C110_modes (hA : checkWhole jAnt = .ok ()) (hJ : checkWhole jDir = .ok ()) (hM : checkWhole mDir = .ok ())
    (hlen : rowChunks.length = tChunks.length) (J : Jones K) (D : Vis K) (F : Flags) (M : ModelVis K) :
    ((∃ d, daskCorruptVis tChunks rowChunks chanChunks corrChunks jAnt jDir mDir idx cnt ant1 ant2 J M = .ok d) ↔
      ¬ (J.ndim = 6 ∧ M.ndim = 4)) ∧
    ((∃ d, daskCorrectVis tChunks rowChunks chanChunks corrChunks jAnt jDir idx cnt ant1 ant2 J D F = .ok d) ↔
      ¬ (J.ndim = 6 ∧ D.ndim = 3)) ∧
    ((∃ d, daskResidualVis tChunks rowChunks chanChunks corrChunks jAnt jDir mDir idx cnt ant1 ant2 J D F M =
      .ok d) ↔ ¬ (J.ndim = 6 ∧ D.ndim = 3)) := by
  unfold daskCorrectVis daskResidualVis daskCorruptVis
  rw [hA, hJ, hM]
  refine ⟨?_, ?_, ?_⟩
  · cases J <;> cases M <;> simp [Jones.ndim, ModelVis.ndim, checkType, hlen]
  · cases J <;> cases D <;> simp [Jones.ndim, Vis.ndim, checkType, hlen]
  · cases J <;> cases D <;> simp [Jones.ndim, Vis.ndim, checkType, hlen]

end

/-! ### compute_and_corrupt_vis -/

/-- C110, `compute_and_corrupt_vis`. -/
theorem C110_compute_and_corrupt_vis (m2pioc : ℝ)
    {tChunks rowChunks chanChunks corrChunks jAnt jDir mDir uvwLast lmDir lmLast : List Nat}
    {idx cnt ant1 ant2 : Nat → Nat} (J : Jones ℂ) (M : ModelVis ℂ) (uvw : Nat → Fin 3 → ℝ) (freq : Nat → ℝ)
    (lm : Nat → Nat → Fin 2 → ℝ) (V : Vis ℂ) (hfit : Fits idx cnt tChunks rowChunks)
    (hA : checkWhole jAnt = .ok ()) (hJ : checkWhole jDir = .ok ()) (hM : checkWhole mDir = .ok ())
    (hU : checkWhole uvwLast = .ok ()) (hL : checkWhole lmDir = .ok ()) (hL2 : checkWhole lmLast = .ok ())
    (hcorr : M.ndim = 5 → corrChunks = [2])
    (hV : computeAndCorruptVis m2pioc tChunks.sum idx cnt ant1 ant2 chanChunks.sum mDir.sum corrChunks.sum J M uvw
      freq lm = .ok V) :
    ∃ d, daskComputeAndCorruptVis m2pioc tChunks rowChunks chanChunks corrChunks jAnt jDir mDir uvwLast lmDir lmLast
        idx cnt ant1 ant2 J M uvw freq lm = .ok d ∧
      d.rowChunks = rowChunks ∧ d.chanChunks = chanChunks ∧ d.corrChunks = corrChunks ∧ d.Agrees V := by
  obtain ⟨hlen, hm, hd, hblk⟩ := hfit
  have hMd := (checkWhole_ok.1 hM).2
  unfold daskComputeAndCorruptVis
  unfold computeAndCorruptVis at hV
  rw [shiftIdx_ok hm] at hV
  rw [hA, hJ, hM, hU, hL, hL2]
  have hty : ∃ mo, checkType J.ndim M.ndim "model" = .ok mo := by
    cases hc : checkType J.ndim M.ndim "model" with
    | error e => rw [hc] at hV; cases hV
    | ok mo => exact ⟨mo, rfl⟩
  obtain ⟨mo, hty⟩ := hty
  rw [hty]
  simp only [hlen, ne_eq, not_true_eq_false, if_false]
  refine ⟨_, rfl, rfl, rfl, rfl, ?_⟩
  intro i hi k hk l hl
  obtain ⟨hm', hrow⟩ := hblk i (by rw [hlen]; exact hi)
  simp only at hk hl ⊢
  unfold computeAndCorruptVis
  rw [shiftIdx_ok hm']
  have ht0 := block_le (l := tChunks) (i := i)
  have hn0 := block_le (l := chanChunks) (i := k)
  have hc0 := block_le (l := corrChunks) (i := l)
  cases J <;> cases M <;> cases hV <;> refine ⟨_, rfl, ?_⟩ <;> intro x hx y hy z hz w <;>
    (obtain ⟨t, ht, hin⟩ := (hrow x).1 hx) <;>
    have hn : blockOff chanChunks k + y < chanChunks.sum := by (have := hy; omega)
  · simp only [Vis.entry]
    refine binLoop_block2 (fun v : Nat → ℂ => v z) (fun v : Nat → ℂ => v (blockOff corrChunks l + z)) hm hd
      ht0 hm' hy hn ?_ ht hin
    intro t row
    rw [cMulDD_eq _ _ _ _ _ _ _ _ _ _ _ hz, cMulDD_eq _ _ _ _ _ _ _ _ _ _ _ (by have := hz; omega), jonesMulDD_eq,
      jonesMulDD_eq, hMd]
  · obtain rfl := hcorr rfl
    simp only [(block_one hl).1, Nat.zero_add, Vis.entry]
    refine binLoop_block2 (fun v : M2 ℂ => v (Fin.ofNat 2 z) w) (fun v : M2 ℂ => v (Fin.ofNat 2 z) w) hm hd
      ht0 hm' hy hn ?_ ht hin
    intro t row
    rw [hMd]
  · obtain rfl := hcorr rfl
    simp only [(block_one hl).1, Nat.zero_add, Vis.entry]
    refine binLoop_block2 (fun v : M2 ℂ => v (Fin.ofNat 2 z) w) (fun v : M2 ℂ => v (Fin.ofNat 2 z) w) hm hd
      ht0 hm' hy hn ?_ ht hin
    intro t row
    rw [hMd]

/-! ### compute_jhj and compute_jhr -/

/-- C110. Every block of `compute_jhj` and `compute_jhr` holds the corresponding times and channels of the
numpy result, when antennas, directions and correlations are in one chunk. (The extents declared for the
result are wrong: `C110_jhj_shape_violated`.) -/
theorem C110_jhj_jhr_blocks_partial {tChunks rowChunks chanChunks : List Nat} {idx cnt ant1 ant2 : Nat → Nat}
    (ndir ncorr : Nat) (jones : Arr5 ℂ) (residual : Nat → Nat → Nat → ℂ) (model : Nat → Nat → Nat → Nat → ℂ)
    (F : Flags) (hfit : Fits idx cnt tChunks rowChunks) :
    ∃ (dj : DaskJhj ℝ) (dr : DaskJhj ℂ) (jhj : Arr5 ℝ) (jhr : Arr5 ℂ),
      daskComputeJhj 5 4 tChunks rowChunks chanChunks ndir ncorr idx cnt ant1 ant2 jones model F = .ok dj ∧
      daskComputeJhr 5 3 tChunks rowChunks chanChunks ndir ncorr idx cnt ant1 ant2 jones residual model F = .ok dr ∧
      computeJhj tChunks.sum idx cnt ant1 ant2 chanChunks.sum ndir jones model (F.any ncorr) = .ok jhj ∧
      computeJhr tChunks.sum idx cnt ant1 ant2 chanChunks.sum ndir jones residual model (F.any ncorr) = .ok jhr ∧
      ∀ i < tChunks.length, ∀ k < chanChunks.length, ∃ bj br, dj.block i k = .ok bj ∧ dr.block i k = .ok br ∧
        ∀ t < tChunks.getD i 0, ∀ a, ∀ nu < chanChunks.getD k 0, ∀ s < ndir, ∀ c,
          bj t a nu s c = jhj (blockOff tChunks i + t) a (blockOff chanChunks k + nu) s c ∧
          br t a nu s c = jhr (blockOff tChunks i + t) a (blockOff chanChunks k + nu) s c := by
  obtain ⟨hlen, hm, hd, hblk⟩ := hfit
  obtain ⟨jhj, jhr, h1, h2, h3⟩ := C27_entries (residual := residual) (cnt := cnt) (ant1 := ant1)
    (ant2 := ant2) (nchan := chanChunks.sum) (ndir := ndir) (jones := jones) (model := model)
    (flagged := F.any ncorr) 0 hm
  refine ⟨_, _, jhj, jhr, by unfold daskComputeJhj; simp [checkType, hlen]; rfl,
    by unfold daskComputeJhr; simp [checkType, hlen]; rfl, h1, h2, ?_⟩
  intro i hi k hk
  obtain ⟨hm', hrow⟩ := hblk i hi
  obtain ⟨bj, br, b1, b2, b3⟩ := C27_entries (ntim := blockSize tChunks i)
    (idx := fun t => idx (blockOff tChunks i + t)) (cnt := fun t => cnt (blockOff tChunks i + t))
    (ant1 := fun r => ant1 (blockOff rowChunks i + r)) (ant2 := fun r => ant2 (blockOff rowChunks i + r))
    (nchan := blockSize chanChunks k) (ndir := ndir)
    (jones := fun t p nu => jones (blockOff tChunks i + t) p (blockOff chanChunks k + nu))
    (residual := fun r nu => residual (blockOff rowChunks i + r) (blockOff chanChunks k + nu))
    (model := fun r nu => model (blockOff rowChunks i + r) (blockOff chanChunks k + nu))
    (flagged := (F.block (blockOff rowChunks i) (blockOff chanChunks k) 0).any ncorr) _ hm'
  refine ⟨bj, br, b1, b2, ?_⟩
  intro t ht a nu hnu s hs c
  have ht0 := block_le (l := tChunks) (i := i)
  have hn0 := block_le (l := chanChunks) (i := k)
  unfold blockSize at *
  obtain ⟨e1, e2⟩ := b3 t ht a nu hnu s hs c
  obtain ⟨f1, f2⟩ := h3 (blockOff tChunks i + t) (by omega) a (blockOff chanChunks k + nu) (by omega) s hs c
  have hrow : ∀ j, blockOff rowChunks i + binRow (fun t => idx (blockOff tChunks i + t)) (blockOff rowChunks i) t j =
      binRow idx 0 (blockOff tChunks i + t) j := by
    intro j
    have := hm'.2 t ht
    unfold binRow
    simp only at this ⊢
    omega
  constructor
  · rw [e1, f1]
    refine Finset.sum_congr rfl fun j _ => ?_
    rw [Flags.block_any, hrow]
  · rw [e2, f2]
    refine Finset.sum_congr rfl fun j _ => ?_
    rw [Flags.block_any, hrow]

/-- C110. Only the DIAG_DIAG mode is implemented: other combinations the type check accepts raise
`NotImplementedError`. -/
theorem C110_jhj_modes {tChunks rowChunks chanChunks : List Nat} {idx cnt ant1 ant2 : Nat → Nat}
    (ndir ncorr : Nat) (jones : Arr5 ℂ) (residual : Nat → Nat → Nat → ℂ) (model : Nat → Nat → Nat → Nat → ℂ)
    (F : Flags) (jn : Nat) (hj : jn = 5 ∨ jn = 6) :
    daskComputeJhj jn 5 tChunks rowChunks chanChunks ndir ncorr idx cnt ant1 ant2 jones model F =
      .error .notImplementedError ∧
    daskComputeJhr jn 4 tChunks rowChunks chanChunks ndir ncorr idx cnt ant1 ant2 jones residual model F =
      .error .notImplementedError := by
  rcases hj with rfl | rfl <;> exact ⟨rfl, rfl⟩

/-- C110 is violated by the declared shape of `compute_jhj`: with two times of three rows each in one
chunk, the first axis is declared to have 6 entries, but the (only) block has 2. -/
theorem C110_jhj_shape_violated (jones : Arr5 ℂ) (model : Nat → Nat → Nat → Nat → ℂ) (F : Flags)
    (ant1 ant2 : Nat → Nat) (residual : Nat → Nat → Nat → ℂ) :
    Fits (fun t => 3 * t) (fun _ => 3) [2] [6] ∧
    (∃ d, daskComputeJhj 5 4 [2] [6] [1] 1 1 (fun t => 3 * t) (fun _ => 3) ant1 ant2 jones model F = .ok d ∧
      d.axis0 = [6] ∧ d.extent 0 = 2) ∧
    ∃ d, daskComputeJhr 5 3 [2] [6] [1] 1 1 (fun t => 3 * t) (fun _ => 3) ant1 ant2 jones residual model F = .ok d ∧
      d.axis0 = [6] ∧ d.extent 0 = 2 := by
  refine ⟨⟨rfl, ⟨⟨0, by simp, rfl⟩, by simp⟩, ?_, ?_⟩, ⟨_, rfl, rfl, rfl⟩, _, rfl, rfl, rfl⟩
  · intro t _ t' _ row h1 h2
    unfold InBin at h1 h2
    simp only at h1 h2
    omega
  · intro i hi
    have : i = 0 := by simpa using hi
    subst this
    simp only [blockOff, blockSize, List.take_zero, List.sum_nil, Nat.zero_add, List.getD_cons_zero]
    refine ⟨⟨⟨0, by simp, rfl⟩, by simp⟩, ?_⟩
    intro row
    constructor
    · intro h
      exact ⟨row / 3, by omega, by unfold InBin; simp only; omega⟩
    · rintro ⟨t, ht, h1, h2⟩
      simp only at h1 h2
      omega

/-! ### Correlations in several chunks -/

/-- C110 is violated when the correlation axis is chunked: numpy drops a sample when any of its
correlations is flagged, a block only sees its own correlations. One row with two correlations, the
first one flagged: `correct_vis` and `residual_vis` on whole arrays return 0 for both, on correlation chunks
`(1, 1)` the second is computed. -/
theorem C110_corr_chunks_violated :
    let J : Jones ℂ := .five fun _ _ _ _ _ => 1
    let D : Vis ℂ := .three fun _ _ _ => 1
    let M : ModelVis ℂ := .four fun _ _ _ _ => 0
    let F : Flags := .three fun _ _ c => c == 0
    ∃ V R d e b b',
      correctVis 1 1 (fun _ => 0) (fun _ => 1) (fun _ => 0) (fun _ => 1) 1 1 2 J D (F.any 2) = .ok V ∧
      residualVis 1 (fun _ => 0) (fun _ => 1) (fun _ => 0) (fun _ => 1) 1 1 J D (F.any 2) M = .ok R ∧
      daskCorrectVis [1] [1] [1] [1, 1] [2] [1] (fun _ => 0) (fun _ => 1) (fun _ => 0) (fun _ => 1) J D F = .ok d ∧
      daskResidualVis [1] [1] [1] [1, 1] [2] [1] [1] (fun _ => 0) (fun _ => 1) (fun _ => 0) (fun _ => 1) J D F M =
        .ok e ∧
      d.block 0 0 1 = .ok b ∧ e.block 0 0 1 = .ok b' ∧
      V.entry 0 0 1 0 = 0 ∧ b.entry 0 0 0 0 = 1 ∧ R.entry 0 0 1 0 = 0 ∧ b'.entry 0 0 0 0 = 1 := by
  refine ⟨_, _, _, _, _, _, rfl, rfl, rfl, rfl, rfl, rfl, ?_, ?_, ?_, ?_⟩
  · rfl
  · simp [Vis.entry, binLoop, forRange, upd2, inverseMulDD, Flags.any, Flags.block, blockOff, blockSize]
  · rfl
  · simp [Vis.entry, binLoop, forRange, upd2, subtractDD, Flags.any, Flags.block, blockOff, blockSize]

/-- Two times of one row each in two chunks meet the hypotheses of the C110 theorems. -/
example : Fits (fun t => t) (fun _ => 1) [1, 1] [1, 1] ∧ checkWhole [7] = .ok () ∧ checkWhole [1] = .ok () := by
  refine ⟨⟨rfl, ⟨⟨0, by simp, rfl⟩, by simp⟩, ?_, ?_⟩, rfl, rfl⟩
  · intro t _ t' _ row h1 h2
    unfold InBin at h1 h2
    simp only at h1 h2
    omega
  · intro i hi
    have : i = 0 ∨ i = 1 := by simp at hi; omega
    rcases this with rfl | rfl
    · refine ⟨⟨⟨0, by decide, rfl⟩, fun t _ => Nat.zero_le _⟩, fun row => ?_⟩
      simp only [blockOff, blockSize, InBin]
      constructor
      · intro h; exact ⟨0, by simp, by simp at h; simp [h]⟩
      · rintro ⟨t, ht, h1, h2⟩; simp at *; omega
    · refine ⟨⟨⟨0, by decide, rfl⟩, fun t _ => by simp [blockOff]⟩, fun row => ?_⟩
      simp only [blockOff, blockSize, InBin]
      constructor
      · intro h; exact ⟨0, by simp, by simp at h; simp [h]⟩
      · rintro ⟨t, ht, h1, h2⟩; simp at *; omega

end Verif.Calibration
