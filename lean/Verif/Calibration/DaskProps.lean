/-
Property C110: the calibration functions on chunked (dask) arrays.
-/
import Verif.Calibration.Dask
import Verif.Calibration.Props3

set_option autoImplicit false

namespace Verif.Calibration

/-! ### Vocabulary -/

/-- Entry `(row, chan, corr1, corr2)` of visibilities; `corr2` is ignored for a single correlation axis. -/
def Vis.entry {K : Type*} (v : Vis K) (row nu c1 : Nat) (c2 : Fin 2) : K :=
  match v with
  | .three v => v row nu c1
  | .four v => v row nu (Fin.ofNat 2 c1) c2

/-- Time chunks and row chunks fit: block `i` of the rows consists of the rows of the time bins of block
`i`, starting with its first bin. -/
def Fits (idx cnt : Nat → Nat) (tChunks rowChunks : List Nat) : Prop :=
  tChunks.length = rowChunks.length ∧
  IsMin tChunks.sum idx 0 ∧ Disjoint' tChunks.sum idx cnt ∧
  ∀ i < tChunks.length,
    IsMin (blockSize tChunks i) (fun t => idx (blockOff tChunks i + t)) (blockOff rowChunks i) ∧
    ∀ row, row < blockSize rowChunks i ↔
      ∃ t < blockSize tChunks i, InBin idx cnt (blockOff tChunks i + t) (blockOff rowChunks i + row)

/-- Block `(i, k, l)` of a lazy result holds the corresponding part of `whole`, for every block. -/
def DaskVis.Agrees {K : Type*} (d : DaskVis K) (whole : Vis K) : Prop :=
  ∀ i < d.rowChunks.length, ∀ k < d.chanChunks.length, ∀ l < d.corrChunks.length,
    ∃ b, d.block i k l = .ok b ∧
      ∀ x < blockSize d.rowChunks i, ∀ y < blockSize d.chanChunks k, ∀ z < blockSize d.corrChunks l,
        ∀ w, b.entry x y z w =
          whole.entry (blockOff d.rowChunks i + x) (blockOff d.chanChunks k + y)
            (blockOff d.corrChunks l + z) w

/-! ### Helper lemmas -/

theorem checkWhole_ok {l : List Nat} : checkWhole l = .ok () ↔ l ≠ [] ∧ blockSize l 0 = l.sum := by
  cases l with
  | nil => simp [checkWhole]
  | cons c l =>
    simp only [checkWhole, blockSize]
    by_cases h : c = (c :: l).sum
    · simp [← h]
    · rw [if_pos h]
      simp only [reduceCtorEq, List.getD_cons_zero, ne_eq, not_false_eq_true, true_and, false_iff]
      exact h

/-- A block of the loop nest, with a channel offset as well. -/
theorem binLoop_block2 {V W X : Type*} {ntim : Nat} {idx cnt : Nat → Nat} {nt t0 r0 n0 nchan nchan' : Nat}
    {cell : Nat → Nat → Nat → V → V} {cell' : Nat → Nat → Nat → W → W}
    {init : Nat → Nat → V} {init' : Nat → Nat → W} (g : W → X) (f : V → X)
    (hm : IsMin ntim idx 0) (hd : Disjoint' ntim idx cnt)
    (ht0 : t0 + nt ≤ ntim) (hm' : IsMin nt (fun t => idx (t0 + t)) r0) {nu : Nat} (hnu : nu < nchan')
    (hn : n0 + nu < nchan)
    (hc : ∀ t row, g (cell' t row nu (init' row nu)) = f (cell (t0 + t) (r0 + row) (n0 + nu)
      (init (r0 + row) (n0 + nu))))
    {t row : Nat} (ht : t < nt) (hr : InBin idx cnt (t0 + t) (r0 + row)) :
    g (binLoop nt (fun t => idx (t0 + t) - r0) (fun t => cnt (t0 + t)) nchan' cell' init' row nu) =
      f (binLoop ntim (fun t => idx t - 0) cnt nchan cell init (r0 + row) (n0 + nu)) := by
  have hd' : Disjoint' nt (fun t => idx (t0 + t)) (fun t => cnt (t0 + t)) := by
    intro a ha b hb row h1 h2
    have := hd (t0 + a) (by omega) (t0 + b) (by omega) row h1 h2
    omega
  rw [binLoop_bin (disjoint_shift hm' hd') ht ((inBin_shift hm' ht).2 hr) hnu,
    binLoop_bin (disjoint_shift hm hd) (t := t0 + t) (by omega)
      ((inBin_shift hm (by omega)).2 (by simpa using hr)) hn, hc t row]

theorem block_le {l : List Nat} {i : Nat} : blockOff l i + blockSize l i ≤ l.sum := by
  by_cases h0 : blockSize l i = 0
  · rw [h0, Nat.add_zero]
    unfold blockOff
    conv_rhs => rw [← List.take_append_drop i l, List.sum_append]
    omega
  · have := blockOff_lt (chunks := l) (i := i) (x := blockSize l i - 1) (by omega)
    omega

theorem block_two {l : Nat} (hl : l < [2].length) : blockOff [2] l = 0 := by
  have : l = 0 := by simpa using hl
  subst this; rfl

theorem block_one {n l : Nat} (hl : l < [n].length) : blockOff [n] l = 0 ∧ blockSize [n] l = n := by
  have : l = 0 := by simpa using hl
  subst this; exact ⟨rfl, rfl⟩

theorem Flags.block_any (f : Flags) (n r0 n0 row nu : Nat) :
    (f.block r0 n0 0).any n row nu = f.any n (r0 + row) (n0 + nu) := by
  cases f <;> simp [Flags.block, Flags.any]

/-! ### C110 -/

/-- C110, flags: a sample counts as flagged exactly when the flag of one of its correlations is set. -/
theorem C110_flags (F : Flags) (ncorr row nu : Nat) :
    F.any ncorr row nu = true ↔ match F with
      | .three f => ∃ c < ncorr, f row nu c = true
      | .four f => ∃ a b, f row nu a b = true := by
  cases F with
  | three f => simp [Flags.any]
  | four f =>
    simp only [Flags.any, Bool.or_eq_true]
    constructor
    · rintro (((h | h) | h) | h)
      exacts [⟨0, 0, h⟩, ⟨0, 1, h⟩, ⟨1, 0, h⟩, ⟨1, 1, h⟩]
    · rintro ⟨a, b, h⟩
      match a, b, h with
      | 0, 0, h => simp [h]
      | 0, 1, h => simp [h]
      | 1, 0, h => simp [h]
      | 1, 1, h => simp [h]

section
variable {K : Type*} [Field K] [StarRing K]
variable {tChunks rowChunks chanChunks corrChunks jAnt jDir mDir : List Nat} {idx cnt ant1 ant2 : Nat → Nat}

/-- C110, `corrupt_vis`. Whenever the numpy function accepts the whole arrays, antennas and directions are
in one chunk and time and row chunks fit, the lazy call succeeds, declares the chunks of `antenna1`
and of the channels and correlations, and every block holds the corresponding part of the numpy result.
In the 2x2 modes the correlations are one chunk. -/
theorem C110_corrupt_vis (J : Jones K) (M : ModelVis K) (V : Vis K) (hfit : Fits idx cnt tChunks rowChunks)
    (hA : checkWhole jAnt = .ok ()) (hJ : checkWhole jDir = .ok ()) (hM : checkWhole mDir = .ok ())
    (hcorr : M.ndim = 5 → corrChunks = [2])
    (hV : corruptVis tChunks.sum idx cnt ant1 ant2 chanChunks.sum mDir.sum J M = .ok V) :
    ∃ d, daskCorruptVis tChunks rowChunks chanChunks corrChunks jAnt jDir mDir idx cnt ant1 ant2 J M = .ok d ∧
      d.rowChunks = rowChunks ∧ d.chanChunks = chanChunks ∧ d.corrChunks = corrChunks ∧ d.Agrees V := by
  obtain ⟨hlen, hm, hd, hblk⟩ := hfit
  have hMd := (checkWhole_ok.1 hM).2
  unfold daskCorruptVis
  unfold corruptVis at hV
  rw [shiftIdx_ok hm] at hV
  rw [hA, hJ, hM]
  have hty : ∃ mo, checkType J.ndim M.ndim "model" = .ok mo := by
    cases hc : checkType J.ndim M.ndim "model" with
    | error e => rw [hc] at hV; cases hV
    | ok mo => exact ⟨mo, rfl⟩
  obtain ⟨mo, hty⟩ := hty
  rw [hty]
  simp only [hlen, ne_eq, not_true_eq_false, if_false]
  refine ⟨_, rfl, rfl, rfl, rfl, ?_⟩
  intro i hi k hk l hl
  obtain ⟨hm', hrow⟩ := hblk i (by rw [hlen]; exact hi)
  simp only at hk hl ⊢
  unfold corruptVis
  rw [shiftIdx_ok hm']
  have ht0 := block_le (l := tChunks) (i := i)
  have hn0 := block_le (l := chanChunks) (i := k)
  cases J <;> cases M <;> cases hV <;> refine ⟨_, rfl, ?_⟩ <;> intro x hx y hy z hz w <;>
    (obtain ⟨t, ht, hin⟩ := (hrow x).1 hx) <;>
    have hn : blockOff chanChunks k + y < chanChunks.sum := by (have := hy; omega)
  · simp only [Vis.entry]
    refine binLoop_block2 (fun v : Nat → K => v z) (fun v : Nat → K => v (blockOff corrChunks l + z)) hm hd
      ht0 hm' hy hn ?_ ht hin
    intro t row
    rw [jonesMulDD_eq, jonesMulDD_eq, hMd]
  · obtain rfl := hcorr rfl
    simp only [(block_one hl).1, Nat.zero_add, Vis.entry]
    refine binLoop_block2 (fun v : M2 K => v (Fin.ofNat 2 z) w) (fun v : M2 K => v (Fin.ofNat 2 z) w) hm hd
      ht0 hm' hy hn ?_ ht hin
    intro t row
    rw [hMd]
  · obtain rfl := hcorr rfl
    simp only [(block_one hl).1, Nat.zero_add, Vis.entry]
    refine binLoop_block2 (fun v : M2 K => v (Fin.ofNat 2 z) w) (fun v : M2 K => v (Fin.ofNat 2 z) w) hm hd
      ht0 hm' hy hn ?_ ht hin
    intro t row
    rw [hMd]

/-- C110, `residual_vis`, with the correlations in one chunk. -/
theorem C110_residual_vis_partial (J : Jones K) (D : Vis K) (F : Flags) (M : ModelVis K) (V : Vis K) (ncorr : Nat)
    (hfit : Fits idx cnt tChunks rowChunks)
    (hA : checkWhole jAnt = .ok ()) (hJ : checkWhole jDir = .ok ()) (hM : checkWhole mDir = .ok ())
    (hV : residualVis tChunks.sum idx cnt ant1 ant2 chanChunks.sum mDir.sum J D (F.any ncorr) M = .ok V) :
    ∃ d, daskResidualVis tChunks rowChunks chanChunks [ncorr] jAnt jDir mDir idx cnt ant1 ant2 J D F M = .ok d ∧
      d.rowChunks = rowChunks ∧ d.chanChunks = chanChunks ∧ d.corrChunks = [ncorr] ∧ d.Agrees V := by
  obtain ⟨hlen, hm, hd, hblk⟩ := hfit
  have hMd := (checkWhole_ok.1 hM).2
  unfold daskResidualVis
  unfold residualVis at hV
  rw [shiftIdx_ok hm] at hV
  rw [hA, hJ, hM]
  have hty : ∃ mo, checkType J.ndim D.ndim "vis" = .ok mo := by
    cases hc : checkType J.ndim D.ndim "vis" with
    | error e => rw [hc] at hV; cases hV
    | ok mo => exact ⟨mo, rfl⟩
  obtain ⟨mo, hty⟩ := hty
  rw [hty]
  simp only [hlen, ne_eq, not_true_eq_false, if_false]
  refine ⟨_, rfl, rfl, rfl, rfl, ?_⟩
  intro i hi k hk l hl
  obtain ⟨hm', hrow⟩ := hblk i (by rw [hlen]; exact hi)
  simp only at hk hl ⊢
  simp only [(block_one hl).1, (block_one hl).2]
  unfold residualVis
  rw [shiftIdx_ok hm']
  have ht0 := block_le (l := tChunks) (i := i)
  have hn0 := block_le (l := chanChunks) (i := k)
  cases J <;> cases D <;> cases M <;> cases hV <;> refine ⟨_, rfl, ?_⟩ <;> intro x hx y hy z hz w <;>
    (obtain ⟨t, ht, hin⟩ := (hrow x).1 hx) <;>
    have hn : blockOff chanChunks k + y < chanChunks.sum := by (have := hy; omega)
  all_goals simp only [Nat.zero_add, Vis.entry]
  · refine binLoop_block2 (fun v : Nat → K => v z) (fun v : Nat → K => v z) hm hd
      ht0 hm' hy hn ?_ ht hin
    intro t row
    simp only [Flags.block_any, hMd]
  · refine binLoop_block2 (fun v : M2 K => v (Fin.ofNat 2 z) w) (fun v : M2 K => v (Fin.ofNat 2 z) w) hm hd
      ht0 hm' hy hn ?_ ht hin
    intro t row
    simp only [Flags.block_any, hMd]
  · refine binLoop_block2 (fun v : M2 K => v (Fin.ofNat 2 z) w) (fun v : M2 K => v (Fin.ofNat 2 z) w) hm hd
      ht0 hm' hy hn ?_ ht hin
    intro t row
    simp only [Flags.block_any, hMd]

/-- C110, `correct_vis`, with the correlations in one chunk. -/
theorem C110_correct_vis_partial (J : Jones K) (D : Vis K) (F : Flags) (V : Vis K) (ncorr : Nat)
    (hfit : Fits idx cnt tChunks rowChunks)
    (hA : checkWhole jAnt = .ok ()) (hJ : checkWhole jDir = .ok ())
    (hV : correctVis tChunks.sum tChunks.sum idx cnt ant1 ant2 chanChunks.sum jDir.sum ncorr J D (F.any ncorr) =
      .ok V) :
    ∃ d, daskCorrectVis tChunks rowChunks chanChunks [ncorr] jAnt jDir idx cnt ant1 ant2 J D F = .ok d ∧
      d.rowChunks = rowChunks ∧ d.chanChunks = chanChunks ∧ d.corrChunks = [ncorr] ∧ d.Agrees V := by
  obtain ⟨hlen, hm, hd, hblk⟩ := hfit
  have hJd := (checkWhole_ok.1 hJ).2
  unfold daskCorrectVis
  unfold correctVis at hV
  rw [shiftIdx_ok hm] at hV
  rw [hA, hJ]
  have hty : ∃ mo, checkType J.ndim D.ndim "vis" = .ok mo := by
    cases hc : checkType J.ndim D.ndim "vis" with
    | error e => rw [hc] at hV; cases hV
    | ok mo => exact ⟨mo, rfl⟩
  obtain ⟨mo, hty⟩ := hty
  have hdir : ¬ 1 < jDir.sum := by
    intro h
    rw [hty] at hV
    simp only [if_pos h] at hV
    cases hV
  simp only [if_neg hdir] at hV
  rw [hty]
  simp only [hlen, ne_eq, not_true_eq_false, if_false]
  refine ⟨_, rfl, rfl, rfl, rfl, ?_⟩
  intro i hi k hk l hl
  obtain ⟨hm', hrow⟩ := hblk i (by rw [hlen]; exact hi)
  simp only at hk hl ⊢
  simp only [(block_one hl).1, (block_one hl).2]
  unfold correctVis
  rw [shiftIdx_ok hm']
  simp only [hJd, if_neg hdir]
  have ht0 := block_le (l := tChunks) (i := i)
  have hn0 := block_le (l := chanChunks) (i := k)
  cases J <;> cases D <;> cases hV <;> refine ⟨_, rfl, ?_⟩ <;> intro x hx y hy z hz w <;>
    (obtain ⟨t, ht, hin⟩ := (hrow x).1 hx) <;>
    have hn : blockOff chanChunks k + y < chanChunks.sum := by (have := hy; omega)
  all_goals simp only [Nat.zero_add, Vis.entry]
  · refine binLoop_block2 (fun v : Nat → K => v z) (fun v : Nat → K => v z) hm hd
      ht0 hm' hy hn ?_ ht hin
    intro t row
    simp only [Flags.block_any]
  · refine binLoop_block2 (fun v : M2 K => v (Fin.ofNat 2 z) w) (fun v : M2 K => v (Fin.ofNat 2 z) w) hm hd
      ht0 hm' hy hn ?_ ht hin
    intro t row
    simp only [Flags.block_any]
  · refine binLoop_block2 (fun v : M2 K => v (Fin.ofNat 2 z) w) (fun v : M2 K => v (Fin.ofNat 2 z) w) hm hd
      ht0 hm' hy hn ?_ ht hin
    intro t row
    simp only [Flags.block_any]

end

end Verif.Calibration
