/-
C81, C103 and C107: images, model visibilities, residuals and the Hessian of the wgridder.
-/
import Verif.Gridding.Wgridder
import Mathlib.Tactic.Ring
import Mathlib.Tactic.Linarith
import Mathlib.Tactic.Positivity

set_option autoImplicit false

namespace Verif.Wgridder

open Finset

theorem forRange_update {α : Type*} (n : Nat) (z : α) (f : Nat → α) (i : Nat) :
    forRange n (fun _ => z) (fun i im => Function.update im i (f i)) i = if i < n then f i else z := by
  induction n with
  | zero => simp
  | succ n ih =>
    rw [forRange_succ]
    by_cases h : i = n
    · subst h; rw [Function.update_self, if_pos (by omega)]
    · rw [Function.update_of_ne h, ih]
      by_cases h2 : i < n
      · rw [if_pos h2, if_pos (by omega)]
      · rw [if_neg h2, if_neg (by omega)]

theorem forRangeM_update {α : Type*} (n m : Nat) (z : α) (f : Nat → α) :
    forRangeM n (fun _ => z) (fun i im => if i < m then Except.ok (Function.update im i (f i)) else Except.error PyErr.indexError) =
      if n ≤ m then .ok (fun i => if i < n then f i else z) else .error .indexError := by
  induction n with
  | zero => simp
  | succ n ih =>
    rw [forRangeM_succ, ih]
    by_cases h : n + 1 ≤ m
    · rw [if_pos h, if_pos (by omega)]
      show (if n < m then _ else _) = _
      rw [if_pos (by omega)]
      congr 1
      funext i
      by_cases hi : i = n
      · subst hi; rw [Function.update_self, if_pos (by omega)]
      · rw [Function.update_of_ne hi]
        by_cases h2 : i < n
        · rw [if_pos h2, if_pos (by omega)]
        · rw [if_neg h2, if_neg (by omega)]
    · rw [if_neg h]
      by_cases h2 : n ≤ m
      · rw [if_pos h2]
        show (if n < m then _ else _) = _
        rw [if_neg (by omega)]
      · rw [if_neg h2]
        rfl

theorem dirty_spec {w : Wg} {d : Data} {b : Bins} {vis : Nat → Nat → ℂ} {im : Nat → Nat → Nat → ℝ} (h : dirty w d b vis = .ok im) :
    b.nband ≠ 0 ∧ d.nrow ≠ 0 ∧ d.nchan ≠ 0 ∧ ∀ i < b.nband, im i = dirtyBand w d b vis i := by
  unfold dirty at h
  split_ifs at h with h1 h2
  push Not at h2
  refine ⟨h1, h2.1, h2.2, fun i hi => ?_⟩
  rw [← Except.ok.inj h, forRange_update, if_pos hi]

theorem dirty_ok (w : Wg) (d : Data) (b : Bins) (vis : Nat → Nat → ℂ) (h1 : b.nband ≠ 0) (h2 : d.nrow ≠ 0) (h3 : d.nchan ≠ 0) :
    ∃ im, dirty w d b vis = .ok im := by
  unfold dirty
  rw [if_neg h1, if_neg (by tauto)]
  exact ⟨_, rfl⟩

theorem hessian_spec {w : Wg} {d : Data} {b : Bins} {nimg : Nat} {image : Nat → Nat → Nat → ℝ} {im : Nat → Nat → Nat → ℝ}
    (h : hessian w d b nimg image = .ok im) : b.nband ≠ 0 ∧ b.nband ≤ nimg ∧ ∀ i < b.nband, im i = hessianBand w d b image i := by
  unfold hessian at h
  rw [forRangeM_update] at h
  split_ifs at h with h1 h2
  refine ⟨h1, h2, fun i hi => ?_⟩
  rw [← Except.ok.inj h]
  exact if_pos hi

theorem hessian_ok (w : Wg) (d : Data) (b : Bins) (nimg : Nat) (image : Nat → Nat → Nat → ℝ) (h1 : b.nband ≠ 0) (h2 : b.nband ≤ nimg) :
    ∃ im, hessian w d b nimg image = .ok im := by
  unfold hessian
  rw [if_neg h1, forRangeM_update, if_pos h2]
  exact ⟨_, rfl⟩

theorem residual_spec {w : Wg} {d : Data} {b : Bins} {nimg : Nat} {image : Nat → Nat → Nat → ℝ} {vis : Nat → Nat → ℂ}
    {im : Nat → Nat → Nat → ℝ} (h : residual w d b nimg image vis = .ok im) :
    b.nband ≠ 0 ∧ b.nband ≤ nimg ∧ ∀ i < b.nband, im i = residualBand w d b image vis i := by
  unfold residual at h
  rw [forRangeM_update] at h
  split_ifs at h with h1 h2
  refine ⟨h1, h2, fun i hi => ?_⟩
  rw [← Except.ok.inj h]
  exact if_pos hi

theorem residual_ok (w : Wg) (d : Data) (b : Bins) (nimg : Nat) (image : Nat → Nat → Nat → ℝ) (vis : Nat → Nat → ℂ) (h1 : b.nband ≠ 0)
    (h2 : b.nband ≤ nimg) : ∃ im, residual w d b nimg image vis = .ok im := by
  unfold residual
  rw [if_neg h1, forRangeM_update, if_pos h2]
  exact ⟨_, rfl⟩

/-! ## C81 -/

theorem ms2dirty_sub (w : Wg) (nrow nchan : Nat) (uvw : Nat → UVW) (freq : Nat → ℝ) (a b : Nat → Nat → ℂ)
    (wgt : Option (Nat → Nat → ℝ)) (mask : Option (Nat → Nat → Bool)) (x y : Nat) :
    ms2dirty w nrow nchan uvw freq (fun r c => a r c - b r c) wgt mask x y =
      ms2dirty w nrow nchan uvw freq a wgt mask x y - ms2dirty w nrow nchan uvw freq b wgt mask x y := by
  unfold ms2dirty
  rw [← sum_sub_distrib]
  refine sum_congr rfl fun r _ => ?_
  rw [← sum_sub_distrib]
  refine sum_congr rfl fun c _ => ?_
  split_ifs
  · rw [mul_sub, Complex.sub_re]
    ring
  · ring

/-- C81: the residual is the dirty image of the visibilities minus the Hessian applied to the image, for every image, data, weights,
flags and bins. -/
theorem C81_residual (w : Wg) (d : Data) (b : Bins) (nimg : Nat) (image : Nat → Nat → Nat → ℝ) (vis : Nat → Nat → ℂ)
    (D H : Nat → Nat → Nat → ℝ) (hD : dirty w d b vis = .ok D) (hH : hessian w d b nimg image = .ok H) :
    ∃ R, residual w d b nimg image vis = .ok R ∧ ∀ i < b.nband, ∀ x y, R i x y = D i x y - H i x y := by
  obtain ⟨h1, h2, h3⟩ := hessian_spec hH
  obtain ⟨-, -, -, h4⟩ := dirty_spec hD
  obtain ⟨R, hR⟩ := residual_ok w d b nimg image vis h1 h2
  refine ⟨R, hR, fun i hi x y => ?_⟩
  rw [(residual_spec hR).2.2 i hi, h3 i hi, h4 i hi]
  exact ms2dirty_sub _ _ _ _ _ _ _ _ _ _ _

/-- The sum over row chunks, in closed form. -/
theorem sumRows_spec (n : Nat) (im : Nat → Except PyErr (Nat → Nat → Nat → ℝ)) (a : Nat → Nat → Nat → Nat → ℝ)
    (h : ∀ j < n, im j = .ok (a j)) : ∃ S, sumRows n im = .ok S ∧ ∀ i x y, S i x y = ∑ j ∈ range n, a j i x y := by
  unfold sumRows
  exact forRangeM_ok_inv (P := fun m (S : Nat → Nat → Nat → ℝ) => ∀ i x y, S i x y = ∑ j ∈ range m, a j i x y) (by intros; simp) (by
    intro j S hj hS
    rw [h j hj]
    refine ⟨_, rfl, fun i x y => ?_⟩
    rw [sum_range_succ, ← hS])

/-- Some bin starts at the first channel. -/
def FromZero (b : Bins) : Prop := ∃ j < b.nband, b.idx j = 0

theorem Bins.min_eq {b : Bins} {m : Nat} (h : ∃ j < b.nband, b.idx j = m) (hle : ∀ j < b.nband, m ≤ b.idx j) : b.min = m := by
  obtain ⟨j, hj, e⟩ := h
  unfold Bins.min
  have key : (∀ i ≤ b.nband - 1, forRange (b.nband - 1) (b.idx 0) (fun i m => Min.min m (b.idx (i + 1))) ≤ b.idx i) ∧
      m ≤ forRange (b.nband - 1) (b.idx 0) (fun i m => Min.min m (b.idx (i + 1))) := by
    refine forRange_inv (fun k s => (∀ i ≤ k, s ≤ b.idx i) ∧ m ≤ s) ⟨?_, hle 0 (by omega)⟩ ?_
    · intro i hi
      rw [Nat.le_zero.1 hi]
    · intro i s hi hs
      refine ⟨?_, le_min hs.2 (hle (i + 1) (by omega))⟩
      intro l hl
      rcases Nat.lt_or_ge l (i + 1) with h | h
      · exact (min_le_left _ _).trans (hs.1 l (by omega))
      · rw [show l = i + 1 by omega]
        exact min_le_right _ _
  have := key.1 j (by omega)
  omega

theorem FromZero.min {b : Bins} (h : FromZero b) : b.min = 0 := Bins.min_eq h fun _ _ => Nat.zero_le _

/-- Chunks of channels and bands fit: the bins of a chunk of bands start with the first channel of the chunk of channels and do not
leave it. -/
def Fits (b : Bins) (chanChunks bandChunks : List Nat) (k : Nat) : Prop :=
  FromZero b ∧ (∃ i < blockSize bandChunks k, b.idx (blockOff bandChunks k + i) = blockOff chanChunks k) ∧
    ∀ i < blockSize bandChunks k, blockOff chanChunks k ≤ b.idx (blockOff bandChunks k + i) ∧
      b.idx (blockOff bandChunks k + i) + b.counts (blockOff bandChunks k + i) ≤ blockOff chanChunks k + blockSize chanChunks k

theorem fits_block {b : Bins} {d : Data} {chanChunks bandChunks : List Nat} {k : Nat} (h : Fits b chanChunks bandChunks k)
    (hd : d.nchan = chanChunks.sum) (i : Nat) (hi : i < blockSize bandChunks k) :
    blockOff chanChunks k + (b.block bandChunks k).start (blockSize chanChunks k) i = b.start d.nchan (blockOff bandChunks k + i) ∧
    (b.block bandChunks k).size (blockSize chanChunks k) i = b.size d.nchan (blockOff bandChunks k + i) := by
  obtain ⟨h0, h1, h2⟩ := h
  replace h0 := h0.min
  replace h1 : (b.block bandChunks k).min = blockOff chanChunks k := Bins.min_eq h1 fun i hi => (h2 i hi).1
  obtain ⟨h3, h4⟩ := h2 i hi
  have hk : blockOff chanChunks k + blockSize chanChunks k ≤ chanChunks.sum := by
    by_cases hz : blockSize chanChunks k = 0
    · rw [hz, add_zero]
      unfold blockOff
      have := List.sum_take_add_sum_drop chanChunks k
      omega
    · have := blockOff_lt (chunks := chanChunks) (i := k) (x := blockSize chanChunks k - 1) (by omega)
      omega
  unfold Bins.size Bins.start
  rw [h1, h0, hd]
  show blockOff chanChunks k + min (b.idx (blockOff bandChunks k + i) - _) _ = _ ∧ min (b.idx (blockOff bandChunks k + i) - _ +
    b.counts (blockOff bandChunks k + i)) _ - min (b.idx (blockOff bandChunks k + i) - _) _ = _
  generalize b.idx (blockOff bandChunks k + i) = a at *
  generalize b.counts (blockOff bandChunks k + i) = n at *
  constructor
  · omega
  · omega

theorem wgt_block (d : Data) (rowChunks chanChunks : List Nat) (j k s r c : Nat) :
    wgtAt ((d.block rowChunks chanChunks j k).weights.map fun a => cols a s) r c =
      wgtAt (d.weights.map fun a => cols a (blockOff chanChunks k + s)) (blockOff rowChunks j + r) c := by
  unfold wgtAt Data.block cols
  cases d.weights <;> simp [add_assoc]

theorem mask_block (d : Data) (rowChunks chanChunks : List Nat) (j k s r c : Nat) :
    maskAt ((d.block rowChunks chanChunks j k).flag.map fun a => cols a s) r c =
      maskAt (d.flag.map fun a => cols a (blockOff chanChunks k + s)) (blockOff rowChunks j + r) c := by
  unfold maskAt Data.block cols
  cases d.flag <;> simp [add_assoc]

/-- `ms2dirty` of all rows is the sum over the row chunks. -/
theorem ms2dirty_rows (w : Wg) (d : Data) (rowChunks chanChunks : List Nat) (k s n : Nat) (hd : d.nrow = rowChunks.sum)
    (ms : Nat → Nat → ℂ) (ms' : Nat → Nat → Nat → ℂ)
    (hms : ∀ j r c, r < blockSize rowChunks j → ms' j r c = ms (blockOff rowChunks j + r) c) (x y : Nat) :
    ∑ j ∈ range rowChunks.length, ms2dirty w (d.block rowChunks chanChunks j k).nrow n (d.block rowChunks chanChunks j k).uvw
        (fun c => (d.block rowChunks chanChunks j k).freq (s + c)) (ms' j)
        ((d.block rowChunks chanChunks j k).weights.map fun a => cols a s) ((d.block rowChunks chanChunks j k).flag.map fun a => cols a s) x y =
      ms2dirty w d.nrow n d.uvw (fun c => d.freq (blockOff chanChunks k + s + c)) ms
        (d.weights.map fun a => cols a (blockOff chanChunks k + s)) (d.flag.map fun a => cols a (blockOff chanChunks k + s)) x y := by
  unfold ms2dirty
  rw [hd, ← sum_blocks rowChunks]
  refine sum_congr rfl fun j _ => sum_congr rfl fun r hr => sum_congr rfl fun c _ => ?_
  rw [wgt_block, mask_block, hms j r c (mem_range.1 hr)]
  simp only [Data.block, add_assoc]

theorem dirty2ms_block (w : Wg) (d : Data) (rowChunks chanChunks : List Nat) (j k s : Nat) (image : Nat → Nat → ℝ) (r c : Nat) :
    dirty2ms w (d.block rowChunks chanChunks j k).uvw (fun c => (d.block rowChunks chanChunks j k).freq (s + c)) image none
      ((d.block rowChunks chanChunks j k).flag.map fun a => cols a s) r c =
    dirty2ms w d.uvw (fun c => d.freq (blockOff chanChunks k + s + c)) image none
      (d.flag.map fun a => cols a (blockOff chanChunks k + s)) (blockOff rowChunks j + r) c := by
  unfold dirty2ms
  rw [mask_block]
  simp only [Data.block, add_assoc]
  rfl

/-- C81: for every chunking of the rows into chunks that are not empty, and every chunking of the channels and bands that fits, the
dask dirty image is the dirty image of all rows. -/
theorem C81_dirty_chunks (w : Wg) (d : Data) (b : Bins) (vis : Nat → Nat → ℂ) (rowChunks chanChunks bandChunks : List Nat) (k : Nat)
    (hrow : d.nrow = rowChunks.sum) (hchan : d.nchan = chanChunks.sum) (hband : b.nband = bandChunks.sum)
    (hne : ∀ j < rowChunks.length, blockSize rowChunks j ≠ 0) (hk : blockSize chanChunks k ≠ 0) (hkb : blockSize bandChunks k ≠ 0)
    (hfit : Fits b chanChunks bandChunks k) (D : Nat → Nat → Nat → ℝ) (hD : dirty w d b vis = .ok D) :
    ∃ D', daskDirty w d b vis rowChunks chanChunks bandChunks k = .ok D' ∧
      ∀ i < blockSize bandChunks k, ∀ x y, D' i x y = D (blockOff bandChunks k + i) x y := by
  have hb : ∀ j, ∃ a, j < rowChunks.length → dirty w (d.block rowChunks chanChunks j k) (b.block bandChunks k)
    (fun r c => vis (blockOff rowChunks j + r) (blockOff chanChunks k + c)) = .ok a := by
    intro j
    by_cases hj : j < rowChunks.length
    · obtain ⟨a, ha⟩ := dirty_ok w (d.block rowChunks chanChunks j k) (b.block bandChunks k)
        (fun r c => vis (blockOff rowChunks j + r) (blockOff chanChunks k + c)) hkb (hne j hj) hk
      exact ⟨a, fun _ => ha⟩
    · exact ⟨fun _ _ _ => 0, fun h => absurd h hj⟩
  choose a ha using hb
  obtain ⟨S, hS, hv⟩ := sumRows_spec rowChunks.length _ a ha
  refine ⟨S, hS, fun i hi x y => ?_⟩
  rw [hv, (dirty_spec hD).2.2.2 _ (by rw [hband]; exact blockOff_lt hi)]
  obtain ⟨f1, f2⟩ := fits_block hfit hchan i hi
  have : ∀ j ∈ range rowChunks.length, a j i x y = ms2dirty w (d.block rowChunks chanChunks j k).nrow
      (b.size d.nchan (blockOff bandChunks k + i)) (d.block rowChunks chanChunks j k).uvw
      (fun c => (d.block rowChunks chanChunks j k).freq ((b.block bandChunks k).start (blockSize chanChunks k) i + c))
      (cols (fun r c => vis (blockOff rowChunks j + r) (blockOff chanChunks k + c)) ((b.block bandChunks k).start (blockSize chanChunks k) i))
      ((d.block rowChunks chanChunks j k).weights.map fun a => cols a ((b.block bandChunks k).start (blockSize chanChunks k) i))
      ((d.block rowChunks chanChunks j k).flag.map fun a => cols a ((b.block bandChunks k).start (blockSize chanChunks k) i)) x y := by
    intro j hj
    rw [(dirty_spec (ha j (mem_range.1 hj))).2.2.2 i hi, ← f2]
    rfl
  rw [sum_congr rfl this]
  refine (ms2dirty_rows w d rowChunks chanChunks k _ _ hrow (cols vis (b.start d.nchan (blockOff bandChunks k + i))) _ ?_ x y).trans ?_
  · intro j r c _
    unfold cols
    rw [← f1, add_assoc]
  · rw [f1]
    rfl

/-- C81: the same for the Hessian; here chunks of rows may be empty. -/
theorem C81_hessian_chunks (w : Wg) (d : Data) (b : Bins) (image : Nat → Nat → Nat → ℝ) (rowChunks chanChunks bandChunks : List Nat)
    (k : Nat) (hrow : d.nrow = rowChunks.sum) (hchan : d.nchan = chanChunks.sum) (hband : b.nband = bandChunks.sum)
    (hkb : blockSize bandChunks k ≠ 0) (hfit : Fits b chanChunks bandChunks k) (H : Nat → Nat → Nat → ℝ)
    (hH : hessian w d b b.nband image = .ok H) :
    ∃ H', daskHessian w d b image rowChunks chanChunks bandChunks k = .ok H' ∧
      ∀ i < blockSize bandChunks k, ∀ x y, H' i x y = H (blockOff bandChunks k + i) x y := by
  have hb : ∀ j, ∃ a, hessian w (d.block rowChunks chanChunks j k) (b.block bandChunks k) (blockSize bandChunks k)
      (fun i => image (blockOff bandChunks k + i)) = .ok a := fun j => hessian_ok _ _ _ _ _ hkb le_rfl
  choose a ha using hb
  obtain ⟨S, hS, hv⟩ := sumRows_spec rowChunks.length _ a (fun j _ => ha j)
  refine ⟨S, hS, fun i hi x y => ?_⟩
  rw [hv, (hessian_spec hH).2.2 _ (by rw [hband]; exact blockOff_lt hi)]
  obtain ⟨f1, f2⟩ := fits_block hfit hchan i hi
  have : ∀ j ∈ range rowChunks.length, a j i x y = ms2dirty w (d.block rowChunks chanChunks j k).nrow
      (b.size d.nchan (blockOff bandChunks k + i)) (d.block rowChunks chanChunks j k).uvw
      (fun c => (d.block rowChunks chanChunks j k).freq ((b.block bandChunks k).start (blockSize chanChunks k) i + c))
      (dirty2ms w (d.block rowChunks chanChunks j k).uvw
        (fun c => (d.block rowChunks chanChunks j k).freq ((b.block bandChunks k).start (blockSize chanChunks k) i + c))
        (image (blockOff bandChunks k + i)) none
        ((d.block rowChunks chanChunks j k).flag.map fun a => cols a ((b.block bandChunks k).start (blockSize chanChunks k) i)))
      ((d.block rowChunks chanChunks j k).weights.map fun a => cols a ((b.block bandChunks k).start (blockSize chanChunks k) i))
      ((d.block rowChunks chanChunks j k).flag.map fun a => cols a ((b.block bandChunks k).start (blockSize chanChunks k) i)) x y := by
    intro j hj
    rw [(hessian_spec (ha j)).2.2 i hi, ← f2]
    rfl
  rw [sum_congr rfl this]
  refine (ms2dirty_rows w d rowChunks chanChunks k _ _ hrow (dirty2ms w d.uvw (fun c => d.freq (b.start d.nchan (blockOff bandChunks k + i) + c))
    (image (blockOff bandChunks k + i)) none (d.flag.map fun a => cols a (b.start d.nchan (blockOff bandChunks k + i)))) _ ?_ x y).trans ?_
  · intro j r c _
    rw [dirty2ms_block, f1]
  · rw [f1]
    rfl

/-- C81: the same for the residual. -/
theorem C81_residual_chunks (w : Wg) (d : Data) (b : Bins) (image : Nat → Nat → Nat → ℝ) (vis : Nat → Nat → ℂ)
    (rowChunks chanChunks bandChunks : List Nat) (k : Nat) (hrow : d.nrow = rowChunks.sum) (hchan : d.nchan = chanChunks.sum)
    (hband : b.nband = bandChunks.sum) (hkb : blockSize bandChunks k ≠ 0) (hfit : Fits b chanChunks bandChunks k)
    (R : Nat → Nat → Nat → ℝ) (hR : residual w d b b.nband image vis = .ok R) :
    ∃ R', daskResidual w d b image vis rowChunks chanChunks bandChunks k = .ok R' ∧
      ∀ i < blockSize bandChunks k, ∀ x y, R' i x y = R (blockOff bandChunks k + i) x y := by
  have hb : ∀ j, ∃ a, residual w (d.block rowChunks chanChunks j k) (b.block bandChunks k) (blockSize bandChunks k)
      (fun i => image (blockOff bandChunks k + i)) (fun r c => vis (blockOff rowChunks j + r) (blockOff chanChunks k + c)) = .ok a :=
    fun j => residual_ok _ _ _ _ _ _ hkb le_rfl
  choose a ha using hb
  obtain ⟨S, hS, hv⟩ := sumRows_spec rowChunks.length _ a (fun j _ => ha j)
  refine ⟨S, hS, fun i hi x y => ?_⟩
  rw [hv, (residual_spec hR).2.2 _ (by rw [hband]; exact blockOff_lt hi)]
  obtain ⟨f1, f2⟩ := fits_block hfit hchan i hi
  have : ∀ j ∈ range rowChunks.length, a j i x y = ms2dirty w (d.block rowChunks chanChunks j k).nrow
      (b.size d.nchan (blockOff bandChunks k + i)) (d.block rowChunks chanChunks j k).uvw
      (fun c => (d.block rowChunks chanChunks j k).freq ((b.block bandChunks k).start (blockSize chanChunks k) i + c))
      (fun r c => cols (fun r c => vis (blockOff rowChunks j + r) (blockOff chanChunks k + c)) ((b.block bandChunks k).start (blockSize chanChunks k) i) r c -
        dirty2ms w (d.block rowChunks chanChunks j k).uvw
        (fun c => (d.block rowChunks chanChunks j k).freq ((b.block bandChunks k).start (blockSize chanChunks k) i + c))
        (image (blockOff bandChunks k + i)) none
        ((d.block rowChunks chanChunks j k).flag.map fun a => cols a ((b.block bandChunks k).start (blockSize chanChunks k) i)) r c)
      ((d.block rowChunks chanChunks j k).weights.map fun a => cols a ((b.block bandChunks k).start (blockSize chanChunks k) i))
      ((d.block rowChunks chanChunks j k).flag.map fun a => cols a ((b.block bandChunks k).start (blockSize chanChunks k) i)) x y := by
    intro j hj
    rw [(residual_spec (ha j)).2.2 i hi, ← f2]
    rfl
  rw [sum_congr rfl this]
  refine (ms2dirty_rows w d rowChunks chanChunks k _ _ hrow (fun r c => cols vis (b.start d.nchan (blockOff bandChunks k + i)) r c -
    dirty2ms w d.uvw (fun c => d.freq (b.start d.nchan (blockOff bandChunks k + i) + c))
    (image (blockOff bandChunks k + i)) none (d.flag.map fun a => cols a (b.start d.nchan (blockOff bandChunks k + i))) r c) _ ?_ x y).trans ?_
  · intro j r c _
    rw [dirty2ms_block, f1]
    unfold cols
    rw [← f1, add_assoc]
  · rw [f1]
    rfl

/-! ## C103 -/

/-- Visibility of an image without weights and mask. -/
noncomputable def predict (w : Wg) (u : UVW) (f : ℝ) (image : Nat → Nat → ℝ) : ℂ :=
  ∑ x ∈ range w.nx, ∑ y ∈ range w.ny, w.ker u f x y * (image x y : ℂ)

/-- `ms2dirty` is the transpose of the prediction. -/
theorem ms2dirty_inner (w : Wg) (nrow nchan : Nat) (uvw : Nat → UVW) (freq : Nat → ℝ) (ms : Nat → Nat → ℂ)
    (wgt : Option (Nat → Nat → ℝ)) (mask : Option (Nat → Nat → Bool)) (q : Nat → Nat → ℝ) :
    ∑ x ∈ range w.nx, ∑ y ∈ range w.ny, q x y * ms2dirty w nrow nchan uvw freq ms wgt mask x y =
      ∑ r ∈ range nrow, ∑ c ∈ range nchan,
        if maskAt mask r c then wgtAt wgt r c * ((starRingEnd ℂ) (predict w (uvw r) (freq c) q) * ms r c).re else 0 := by
  have h : ∀ r c, (if maskAt mask r c then wgtAt wgt r c * ((starRingEnd ℂ) (predict w (uvw r) (freq c) q) * ms r c).re else 0) =
      ∑ x ∈ range w.nx, ∑ y ∈ range w.ny, q x y *
        (if maskAt mask r c then wgtAt wgt r c * ((starRingEnd ℂ) (w.ker (uvw r) (freq c) x y) * ms r c).re else 0) := by
    intro r c
    by_cases hm : maskAt mask r c = true
    · simp only [if_pos hm]
      unfold predict
      rw [map_sum, sum_mul, Complex.re_sum, mul_sum]
      refine sum_congr rfl fun x _ => ?_
      rw [map_sum, sum_mul, Complex.re_sum, mul_sum]
      refine sum_congr rfl fun y _ => ?_
      rw [map_mul, Complex.conj_ofReal]
      simp only [Complex.mul_re, Complex.mul_im, Complex.ofReal_re, Complex.ofReal_im]
      ring
    · simp only [if_neg hm, mul_zero, sum_const_zero]
  unfold ms2dirty
  simp only [h, mul_sum]
  rw [sum_congr rfl fun x _ => sum_comm, sum_comm]
  refine sum_congr rfl fun r _ => ?_
  rw [sum_congr rfl fun x _ => sum_comm, sum_comm]

/-- The quadratic form of the Hessian in a band. -/
theorem hessian_form (w : Wg) (d : Data) (b : Bins) (p q : Nat → Nat → Nat → ℝ) (i : Nat) :
    ∑ x ∈ range w.nx, ∑ y ∈ range w.ny, q i x y * hessianBand w d b p i x y =
      ∑ r ∈ range d.nrow, ∑ c ∈ range (b.size d.nchan i),
        if maskAt (d.flag.map fun a => cols a (b.start d.nchan i)) r c then
          wgtAt (d.weights.map fun a => cols a (b.start d.nchan i)) r c *
            ((starRingEnd ℂ) (predict w (d.uvw r) (d.freq (b.start d.nchan i + c)) (q i)) *
              predict w (d.uvw r) (d.freq (b.start d.nchan i + c)) (p i)).re else 0 := by
  refine (ms2dirty_inner _ _ _ _ _ _ _ _ _).trans (sum_congr rfl fun r _ => sum_congr rfl fun c _ => ?_)
  split_ifs with hm
  · unfold dirty2ms
    rw [if_pos hm]
    show _ * (_ * (((1 : ℝ) : ℂ) * _)).re = _
    rw [Complex.ofReal_one, one_mul]
    rfl
  · rfl

/-- C103: in every band the Hessian is symmetric, for all weights. -/
theorem C103_symmetric (w : Wg) (d : Data) (b : Bins) (nimg : Nat) (p q P Q : Nat → Nat → Nat → ℝ)
    (hP : hessian w d b nimg p = .ok P) (hQ : hessian w d b nimg q = .ok Q) (i : Nat) (hi : i < b.nband) :
    ∑ x ∈ range w.nx, ∑ y ∈ range w.ny, q i x y * P i x y = ∑ x ∈ range w.nx, ∑ y ∈ range w.ny, Q i x y * p i x y := by
  have h2 : ∀ x y, Q i x y * p i x y = p i x y * Q i x y := fun x y => mul_comm _ _
  simp only [h2]
  rw [(hessian_spec hP).2.2 i hi, (hessian_spec hQ).2.2 i hi, hessian_form, hessian_form]
  refine sum_congr rfl fun r _ => sum_congr rfl fun c _ => ?_
  split_ifs
  · simp only [Complex.mul_re, Complex.conj_re, Complex.conj_im]
    ring
  · rfl

/-- C103: and, for weights that are not negative, positive semidefinite. -/
theorem C103_psd (w : Wg) (d : Data) (b : Bins) (nimg : Nat) (p P : Nat → Nat → Nat → ℝ) (hP : hessian w d b nimg p = .ok P)
    (hw : ∀ r c, 0 ≤ wgtAt d.weights r c) (i : Nat) (hi : i < b.nband) : 0 ≤ ∑ x ∈ range w.nx, ∑ y ∈ range w.ny, p i x y * P i x y := by
  rw [(hessian_spec hP).2.2 i hi, hessian_form]
  refine sum_nonneg fun r _ => sum_nonneg fun c _ => ?_
  split_ifs
  · refine mul_nonneg ?_ ?_
    · have := hw r (b.start d.nchan i + c)
      unfold wgtAt cols at *
      cases h : d.weights
      · simp
      · rw [h] at this
        exact this
    · rw [← Complex.normSq_eq_conj_mul_self, Complex.ofReal_re]
      exact Complex.normSq_nonneg _
  · exact le_rfl

/-! ## C107 -/

/-- The bins name channels that exist and share none. -/
def Disjoint (b : Bins) (nchan : Nat) : Prop :=
  (∀ i < b.nband, b.idx i + b.counts i ≤ nchan) ∧
    ∀ i < b.nband, ∀ j < b.nband, i ≠ j → b.idx i + b.counts i ≤ b.idx j ∨ b.idx j + b.counts j ≤ b.idx i

theorem start_size {b : Bins} {nchan : Nat} (h0 : b.min = 0) {i : Nat} (hi : b.idx i + b.counts i ≤ nchan) :
    b.start nchan i = b.idx i ∧ b.size nchan i = b.counts i := by
  unfold Bins.size Bins.start
  rw [h0]
  omega

/-- C107: if the first bin starts with channel 0, band `i` of the dirty image is the sum over all rows and exactly the channels
`freq_bin_idx[i], …, freq_bin_idx[i] + freq_bin_counts[i] - 1` of the weighted visibilities that the flags select. -/
theorem C107_dirty_partial (w : Wg) (d : Data) (b : Bins) (vis : Nat → Nat → ℂ) (D : Nat → Nat → Nat → ℝ) (hD : dirty w d b vis = .ok D)
    (h0 : FromZero b) (i : Nat) (hi : i < b.nband) (hc : b.idx i + b.counts i ≤ d.nchan) (x y : Nat) :
    D i x y = ∑ r ∈ range d.nrow, ∑ c ∈ Ico (b.idx i) (b.idx i + b.counts i),
      if maskAt d.flag r c then wgtAt d.weights r c * ((starRingEnd ℂ) (w.ker (d.uvw r) (d.freq c) x y) * vis r c).re else 0 := by
  obtain ⟨h1, h2⟩ := start_size h0.min hc
  rw [(dirty_spec hD).2.2.2 i hi]
  unfold dirtyBand ms2dirty
  simp only [h1, h2]
  refine sum_congr rfl fun r _ => ?_
  rw [sum_Ico_eq_sum_range, Nat.add_sub_cancel_left]
  refine sum_congr rfl fun c _ => ?_
  unfold maskAt wgtAt cols
  cases d.flag <;> cases d.weights <;> rfl

theorem forRangeM_model (n m : Nat) (z : Nat → Nat → ℂ) (f : Nat → (Nat → Nat → ℂ) → (Nat → Nat → ℂ)) (h : n ≤ m) :
    forRangeM n z (fun i vis => if i < m then Except.ok (f i vis) else Except.error PyErr.indexError) = .ok (forRange n z f) := by
  induction n with
  | zero => simp
  | succ n ih =>
    rw [forRangeM_succ, ih (by omega), forRange_succ]
    show (if n < m then _ else _) = _
    rw [if_pos (by omega)]

theorem forRangeM_model_error (n m : Nat) (z : Nat → Nat → ℂ) (f : Nat → (Nat → Nat → ℂ) → (Nat → Nat → ℂ)) (h : m < n) :
    forRangeM n z (fun i vis => if i < m then Except.ok (f i vis) else Except.error PyErr.indexError) = .error .indexError := by
  induction n with
  | zero => omega
  | succ n ih =>
    rw [forRangeM_succ]
    by_cases h2 : m < n
    · rw [ih h2]
      rfl
    · rw [forRangeM_model n m z f (by omega)]
      show (if n < m then _ else _) = _
      rw [if_neg (by omega)]

/-- Band `i` as the model writes it, for a bin inside the data. -/
theorem modelBand_apply (w : Wg) (d : Data) (b : Bins) (image : Nat → Nat → Nat → ℝ) (i : Nat) (vis : Nat → Nat → ℂ) (h0 : b.min = 0)
    (hc : b.idx i + b.counts i ≤ d.nchan) (r c : Nat) :
    modelBand w d b image i vis r c = if b.idx i ≤ c ∧ c < b.idx i + b.counts i then
      dirty2ms w d.uvw d.freq (image i) d.weights d.flag r c else vis r c := by
  obtain ⟨h1, h2⟩ := start_size h0 hc
  unfold modelBand setCols
  simp only [h1, h2]
  split_ifs with h
  · have h3 : b.idx i + (c - b.idx i) = c := by omega
    unfold dirty2ms maskAt wgtAt cols
    cases d.flag <;> cases d.weights <;> simp [h3]
  · rfl

/-- C107: if the first bin starts with channel 0 and the bins are disjoint, the model visibility of a channel in bin `i` is the
weighted prediction of band `i` of the image where the flags select it and 0 elsewhere. -/
theorem C107_model_partial (w : Wg) (d : Data) (b : Bins) (image : Nat → Nat → Nat → ℝ) (V : Nat → Nat → ℂ)
    (hV : model w d b b.nband image = .ok V) (h0 : FromZero b) (hdis : Disjoint b d.nchan) (r : Nat) (i : Nat) (hi : i < b.nband)
    (c : Nat) (hc : b.idx i ≤ c ∧ c < b.idx i + b.counts i) :
    V r c = if maskAt d.flag r c then (wgtAt d.weights r c : ℂ) * predict w (d.uvw r) (d.freq c) (image i) else 0 := by
  unfold model at hV
  split_ifs at hV with h1
  rw [forRangeM_model _ _ _ _ le_rfl] at hV
  rw [← Except.ok.inj hV]
  refine forRange_single (fun s : Nat → Nat → ℂ => s r c) i hi (fun _ => if maskAt d.flag r c then
    (wgtAt d.weights r c : ℂ) * predict w (d.uvw r) (d.freq c) (image i) else 0) ?_ ?_
  · intro s
    show modelBand w d b image i s r c = _
    rw [modelBand_apply w d b image i s h0.min (hdis.1 i hi), if_pos hc]
    rfl
  · intro j hj hji s
    show modelBand w d b image j s r c = s r c
    rw [modelBand_apply w d b image j s h0.min (hdis.1 j hj), if_neg]
    have := hdis.2 i hi j hj (Ne.symm hji)
    omega

/-- C107: channels in no bin keep the value 0. -/
theorem C107_rest_partial (w : Wg) (d : Data) (b : Bins) (image : Nat → Nat → Nat → ℝ) (V : Nat → Nat → ℂ)
    (hV : model w d b b.nband image = .ok V) (h0 : FromZero b) (hdis : Disjoint b d.nchan) (r c : Nat)
    (hc : ∀ i < b.nband, ¬(b.idx i ≤ c ∧ c < b.idx i + b.counts i)) : V r c = 0 := by
  unfold model at hV
  split_ifs at hV with h1
  rw [forRangeM_model _ _ _ _ le_rfl] at hV
  rw [← Except.ok.inj hV]
  refine forRange_const (fun s : Nat → Nat → ℂ => s r c) ?_
  intro j hj s
  show modelBand w d b image j s r c = s r c
  rw [modelBand_apply w d b image j s h0.min (hdis.1 j hj), if_neg (hc j hj)]

/-- C107: an image with more bands than there are bins is an error, for the model; one with fewer, for the Hessian and the residual. -/
theorem C107_bands (w : Wg) (d : Data) (b : Bins) (nimg : Nat) (image : Nat → Nat → Nat → ℝ) (vis : Nat → Nat → ℂ) (h0 : b.nband ≠ 0) :
    (b.nband < nimg → model w d b nimg image = .error .indexError) ∧
    (nimg < b.nband → hessian w d b nimg image = .error .indexError ∧ residual w d b nimg image vis = .error .indexError) := by
  constructor
  · intro h
    unfold model
    rw [if_neg h0, forRangeM_model_error _ _ _ _ h]
  · intro h
    unfold hessian residual
    rw [if_neg h0, if_neg h0, forRangeM_update, forRangeM_update, if_neg (by omega), if_neg (by omega)]
    exact ⟨rfl, rfl⟩

/-- C107: predicting and imaging with the same weights, flags and disjoint bins are transposes of each other, summed over the bands. -/
theorem C107_transpose_partial (w : Wg) (d : Data) (b : Bins) (image : Nat → Nat → Nat → ℝ) (vis : Nat → Nat → ℂ)
    (D : Nat → Nat → Nat → ℝ) (V : Nat → Nat → ℂ) (hD : dirty w d b vis = .ok D) (hV : model w d b b.nband image = .ok V)
    (h0 : FromZero b) (hdis : Disjoint b d.nchan) :
    ∑ i ∈ range b.nband, ∑ x ∈ range w.nx, ∑ y ∈ range w.ny, image i x y * D i x y =
      ∑ r ∈ range d.nrow, ∑ c ∈ range d.nchan, ((starRingEnd ℂ) (V r c) * vis r c).re := by
  have h : ∀ r, ∑ c ∈ range d.nchan, ((starRingEnd ℂ) (V r c) * vis r c).re =
      ∑ i ∈ range b.nband, ∑ c ∈ Ico (b.idx i) (b.idx i + b.counts i), ((starRingEnd ℂ) (V r c) * vis r c).re := by
    intro r
    rw [← sum_biUnion]
    · symm
      refine sum_subset ?_ ?_
      · intro c hc
        simp only [mem_biUnion, mem_range, mem_Ico] at hc ⊢
        obtain ⟨i, hi, hc⟩ := hc
        have := hdis.1 i hi
        omega
      · intro c _ hc
        rw [C107_rest_partial w d b image V hV h0 hdis r c]
        · simp
        · intro i hi hic
          apply hc
          simp only [mem_biUnion, mem_range, mem_Ico]
          exact ⟨i, hi, hic⟩
    · intro i hi j hj hij
      rw [Function.onFun, Finset.disjoint_left]
      intro c hc hc2
      rw [mem_Ico] at hc hc2
      have := hdis.2 i (by simpa using hi) j (by simpa using hj) hij
      omega
  rw [sum_congr rfl fun r _ => h r, sum_comm (s := range d.nrow)]
  refine sum_congr rfl fun i hi => ?_
  have hi := mem_range.1 hi
  obtain ⟨h1, h2⟩ := start_size h0.min (hdis.1 i hi)
  rw [(dirty_spec hD).2.2.2 i hi]
  refine (ms2dirty_inner w _ _ _ _ _ _ _ (image i)).trans (sum_congr rfl fun r _ => ?_)
  rw [h1, h2, sum_Ico_eq_sum_range, Nat.add_sub_cancel_left]
  refine sum_congr rfl fun c hc => ?_
  have hc := mem_range.1 hc
  rw [C107_model_partial w d b image V hV h0 hdis r i hi (b.idx i + c) (by omega)]
  have e1 : maskAt (d.flag.map fun a => cols a (b.idx i)) r c = maskAt d.flag r (b.idx i + c) := by
    unfold maskAt cols
    cases d.flag <;> rfl
  have e2 : wgtAt (d.weights.map fun a => cols a (b.idx i)) r c = wgtAt d.weights r (b.idx i + c) := by
    unfold wgtAt cols
    cases d.weights <;> rfl
  rw [e1, e2]
  split_ifs
  · unfold cols
    rw [map_mul, Complex.conj_ofReal, mul_assoc, Complex.re_ofReal_mul]
  · simp

/-- C107: for every chunking that fits, the dask model visibilities of the channels in a bin are those of the whole data. -/
theorem C107_model_chunks_partial (w : Wg) (d : Data) (b : Bins) (image : Nat → Nat → Nat → ℝ) (rowChunks chanChunks bandChunks : List Nat)
    (j k : Nat) (hchan : d.nchan = chanChunks.sum) (hband : b.nband = bandChunks.sum) (hfit : Fits b chanChunks bandChunks k)
    (hdis : Disjoint b d.nchan) (V : Nat → Nat → ℂ) (hV : model w d b b.nband image = .ok V) (i : Nat) (hi : i < blockSize bandChunks k)
    (r c : Nat) (hc : b.idx (blockOff bandChunks k + i) ≤ blockOff chanChunks k + c ∧
      blockOff chanChunks k + c < b.idx (blockOff bandChunks k + i) + b.counts (blockOff bandChunks k + i)) :
    ∃ V', daskModel w d b image rowChunks chanChunks bandChunks j k = .ok V' ∧
      V' r c = V (blockOff rowChunks j + r) (blockOff chanChunks k + c) := by
  have hB : ∀ i < blockSize bandChunks k, blockOff bandChunks k + i < b.nband := fun i hi => by rw [hband]; exact blockOff_lt hi
  have hne : (b.block bandChunks k).nband ≠ 0 := by
    show blockSize bandChunks k ≠ 0
    omega
  have e : daskModel w d b image rowChunks chanChunks bandChunks j k = .ok (forRange (blockSize bandChunks k) (fun _ _ => 0)
      (modelBand w (d.block rowChunks chanChunks j k) (b.block bandChunks k) (fun i => image (blockOff bandChunks k + i)))) := by
    unfold daskModel model
    rw [if_neg hne]
    exact forRangeM_model _ _ _ _ le_rfl
  refine ⟨_, e, ?_⟩
  rw [C107_model_partial w d b image V hV hfit.1 hdis _ _ (hB i hi) _ hc]
  have ap : ∀ i < blockSize bandChunks k, ∀ (s : Nat → Nat → ℂ),
      modelBand w (d.block rowChunks chanChunks j k) (b.block bandChunks k) (fun i => image (blockOff bandChunks k + i)) i s r c =
      if b.idx (blockOff bandChunks k + i) ≤ blockOff chanChunks k + c ∧
          blockOff chanChunks k + c < b.idx (blockOff bandChunks k + i) + b.counts (blockOff bandChunks k + i) then
        dirty2ms w d.uvw d.freq (image (blockOff bandChunks k + i)) d.weights d.flag (blockOff rowChunks j + r) (blockOff chanChunks k + c)
      else s r c := by
    intro i hi s
    obtain ⟨f1, f2⟩ := fits_block (d := d) hfit hchan i hi
    obtain ⟨h1, h2⟩ := start_size hfit.1.min (hdis.1 _ (hB i hi))
    rw [h1] at f1
    rw [h2] at f2
    have c2 : ((b.block bandChunks k).start (blockSize chanChunks k) i ≤ c ∧
        c < (b.block bandChunks k).start (blockSize chanChunks k) i + (b.block bandChunks k).size (blockSize chanChunks k) i) ↔
        b.idx (blockOff bandChunks k + i) ≤ blockOff chanChunks k + c ∧
          blockOff chanChunks k + c < b.idx (blockOff bandChunks k + i) + b.counts (blockOff bandChunks k + i) := by omega
    unfold modelBand setCols
    show (if (b.block bandChunks k).start (blockSize chanChunks k) i ≤ c ∧
        c < (b.block bandChunks k).start (blockSize chanChunks k) i + (b.block bandChunks k).size (blockSize chanChunks k) i then _ else _) = _
    by_cases h : b.idx (blockOff bandChunks k + i) ≤ blockOff chanChunks k + c ∧
          blockOff chanChunks k + c < b.idx (blockOff bandChunks k + i) + b.counts (blockOff bandChunks k + i)
    · rw [if_pos h, if_pos (c2.2 h)]
      have h3 : (b.block bandChunks k).start (blockSize chanChunks k) i +
        (c - (b.block bandChunks k).start (blockSize chanChunks k) i) = c := by omega
      unfold dirty2ms
      rw [wgt_block, mask_block]
      simp only [Data.block]
      have e1 : maskAt (d.flag.map fun a => cols a (blockOff chanChunks k + (b.block bandChunks k).start (blockSize chanChunks k) i))
          (blockOff rowChunks j + r) (c - (b.block bandChunks k).start (blockSize chanChunks k) i) =
          maskAt d.flag (blockOff rowChunks j + r) (blockOff chanChunks k + c) := by
        unfold maskAt cols
        cases d.flag <;> simp [add_assoc, h3]
      have e2 : wgtAt (d.weights.map fun a => cols a (blockOff chanChunks k + (b.block bandChunks k).start (blockSize chanChunks k) i))
          (blockOff rowChunks j + r) (c - (b.block bandChunks k).start (blockSize chanChunks k) i) =
          wgtAt d.weights (blockOff rowChunks j + r) (blockOff chanChunks k + c) := by
        unfold wgtAt cols
        cases d.weights <;> simp [add_assoc, h3]
      simp only [e1, e2, h3]
    · rw [if_neg h, if_neg (fun h' => h (c2.1 h'))]
  refine forRange_single (fun s : Nat → Nat → ℂ => s r c) i hi (fun _ => if maskAt d.flag (blockOff rowChunks j + r) (blockOff chanChunks k + c)
    then (wgtAt d.weights (blockOff rowChunks j + r) (blockOff chanChunks k + c) : ℂ) * predict w (d.uvw (blockOff rowChunks j + r))
      (d.freq (blockOff chanChunks k + c)) (image (blockOff bandChunks k + i)) else 0) ?_ ?_
  · intro s
    refine (ap i hi s).trans ?_
    rw [if_pos hc]
    rfl
  · intro i' hi' hne s
    refine (ap i' hi' s).trans (if_neg ?_)
    have := hdis.2 _ (hB i hi) _ (hB i' hi') (by omega)
    omega

/-! ### Witnesses -/

/-- One pixel, coefficient one. -/
def unitWg : Wg where
  ker := fun _ _ _ _ => 1
  nx := 1
  ny := 1

/-- One row and `n` channels without weights and flags. -/
def rowData (n : Nat) : Data where
  nrow := 1
  nchan := n
  uvw := fun _ => 0
  freq := fun c => c
  weights := none
  flag := none

/-- C107 fails in general: with one bin that names channel 1 only, of two, the image contains channel 0 and not channel 1, and the
model visibility of channel 1 is 0. -/
theorem C107_violated :
    ∃ (w : Wg) (d : Data) (b : Bins) (vis : Nat → Nat → ℂ) (image D : Nat → Nat → Nat → ℝ) (V : Nat → Nat → ℂ),
      dirty w d b vis = .ok D ∧ model w d b b.nband image = .ok V ∧ Disjoint b d.nchan ∧ b.nband = 1 ∧ b.idx 0 = 1 ∧ b.counts 0 = 1 ∧
      D 0 0 0 ≠ ∑ r ∈ range d.nrow, ∑ c ∈ Ico (b.idx 0) (b.idx 0 + b.counts 0),
        (if maskAt d.flag r c then wgtAt d.weights r c * ((starRingEnd ℂ) (w.ker (d.uvw r) (d.freq c) 0 0) * vis r c).re else 0) ∧
      V 0 1 = 0 ∧ V 0 0 ≠ 0 ∧ predict w (d.uvw 0) (d.freq 1) (image 0) ≠ 0 := by
  refine ⟨unitWg, rowData 2, ⟨1, fun _ => 1, fun _ => 1⟩, fun _ c => if c = 1 then 1 else 0, fun _ _ _ => 1, _, _,
    rfl, rfl, ⟨?_, ?_⟩, rfl, rfl, rfl, ?_, ?_, ?_, ?_⟩
  · intro i hi
    simp [rowData]
  · intro i hi j hj hij
    have : i < 1 := hi
    have : j < 1 := hj
    omega
  · simp [forRange, dirtyBand, ms2dirty, Bins.size, Bins.start, Bins.min, rowData, unitWg, cols, maskAt, wgtAt, List.range_succ]
  · simp [forRange, modelBand, setCols, Bins.size, Bins.start, Bins.min, rowData, unitWg]
  · simp [forRange, modelBand, setCols, dirty2ms, Bins.size, Bins.start, Bins.min, rowData, unitWg, maskAt, wgtAt]
  · simp [predict, unitWg]

/-- Two bins of two channels, chunked with their channels: the hypotheses of C81 and C107 can be met. -/
example : let b : Bins := ⟨2, fun i => 2 * i, fun _ => 2⟩
    FromZero b ∧ Disjoint b 4 ∧ Fits b [2, 2] [1, 1] 0 ∧ Fits b [2, 2] [1, 1] 1 ∧
    (∃ D, dirty unitWg (rowData 4) b (fun _ _ => 1) = .ok D) ∧ (∃ H, hessian unitWg (rowData 4) b 2 (fun _ _ _ => 1) = .ok H) ∧
    ∃ V, model unitWg (rowData 4) b 2 (fun _ _ _ => 1) = .ok V := by
  refine ⟨⟨0, by decide, rfl⟩, ⟨?_, ?_⟩, ?_, ?_, ⟨_, rfl⟩, ⟨_, rfl⟩, ⟨_, rfl⟩⟩
  · intro i (hi : i < 2)
    show 2 * i + 2 ≤ 4
    omega
  · intro i (hi : i < 2) j (hj : j < 2) hij
    show 2 * i + 2 ≤ 2 * j ∨ 2 * j + 2 ≤ 2 * i
    omega
  · exact ⟨⟨0, by decide, rfl⟩, by decide, by decide⟩
  · exact ⟨⟨0, by decide, rfl⟩, by decide, by decide⟩

end Verif.Wgridder
