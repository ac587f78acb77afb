/-
C167: the example program applies to every row the gains of its time and antennas.
-/
import Verif.Examples.ApplyGains
import Verif.Calibration.DaskProps2
import Mathlib.Data.List.GetD

set_option autoImplicit false

namespace Verif.Examples

open Verif.Calibration
open Matrix

/-! ## Specification -/

/-- `ut` lists the distinct times in increasing order. -/
def IsDistinct {α : Type} [LinearOrder α] (time ut : List α) : Prop := ut.Pairwise (· < ·) ∧ ∀ x, x ∈ ut ↔ x ∈ time

/-- The four correlations of a cell as a matrix. -/
def asMatrix {K : Type} (f : Nat → K) : Matrix (Fin 2) (Fin 2) K := Matrix.of fun a b => f (2 * a.val + b.val)

/-- The array written has `n` rows, and its blocks hold the values `v`. -/
def Written {K : Type} (d : DaskVis K) (n nchan ncorr : Nat) (v : Nat → Nat → Nat → K) : Prop :=
  d.rowChunks.sum = n ∧ d.chanChunks = [nchan] ∧ d.corrChunks = [ncorr] ∧ d.Agrees (.three v)

/-! ## Chunks -/

private theorem regular_spec {n u : Nat} (hu : 0 < u) (hn : 0 < n) :
    (∀ b, b < (regularChunks n u).length ↔ b * u < n) ∧ ∀ b, b * u < n → (regularChunks n u).getD b 0 = min u (n - b * u) := by
  have hdm := Nat.div_add_mod n u
  have hlt := Nat.mod_lt n hu
  unfold regularChunks
  rw [if_neg (by omega)]
  generalize n / u = q at *
  generalize n % u = r at *
  have hle : ∀ b, b ≤ q → b * u ≤ u * q := fun b hb => by rw [Nat.mul_comm u]; exact Nat.mul_le_mul_right u hb
  have hge : ∀ b, q < b → u * q + u ≤ b * u := fun b hb => by
    calc u * q + u = (q + 1) * u := by ring
      _ ≤ b * u := Nat.mul_le_mul_right u hb
  have hlt' : ∀ b, b < q → b * u + u ≤ u * q := fun b hb => by
    calc b * u + u = (b + 1) * u := by ring
      _ ≤ q * u := Nat.mul_le_mul_right u hb
      _ = u * q := Nat.mul_comm _ _
  constructor
  · intro b
    by_cases hr : r = 0
    · simp only [if_pos hr, List.append_nil, List.length_replicate]
      constructor
      · intro h; have := hlt' b h; omega
      · intro h; by_contra hc
        rcases Nat.lt_or_ge q b with h' | h'
        · have := hge b h'; omega
        · have : b = q := by omega
          subst this; rw [Nat.mul_comm] at h; omega
    · simp only [if_neg hr, List.length_append, List.length_replicate, List.length_singleton]
      constructor
      · intro h; have := hle b (by omega); omega
      · intro h; by_contra hc
        have := hge b (by omega); omega
  · intro b hb
    rcases Nat.lt_or_ge b q with h | h
    · rw [List.getD_append _ _ _ _ (by simpa using h), List.getD_replicate _ h]
      have := hlt' b h; omega
    · have hbq : b = q := by
        rcases Nat.lt_or_ge q b with h' | h'
        · have := hge b h'; omega
        · omega
      subst hbq
      have : b * u = u * b := Nat.mul_comm _ _
      have hr : r ≠ 0 := by omega
      rw [if_neg hr, List.getD_append_right _ _ _ _ (by simp)]
      simp
      omega

private theorem regular_fits {α : Type} [LinearOrder α] (time : List α) (hne : time ≠ []) (u : Nat) (hu : 0 < u)
    (out : RowChunks) (h : chunkifyRows time u = .ok out) :
    (regularChunks out.timeBinIndices.length u).sum = out.timeBinIndices.length ∧
      Fits (fun t => out.timeBinIndices.getD t 0) (fun t => out.timeBinCounts.getD t 0)
        (regularChunks out.timeBinIndices.length u) out.rowChunks := by
  obtain ⟨t, h1, h2, h3⟩ := C110_chunkify_fits time hne u hu out h
  obtain ⟨out', ut, g1, _, g3, _, g5, _, g7, _⟩ := C26_chunkify_rows time u hu
  rw [h] at g1
  cases g1
  obtain ⟨x, hx⟩ := List.exists_mem_of_ne_nil _ hne
  have hn : 0 < out.timeBinIndices.length := by rw [g5]; exact List.length_pos_of_mem ((g3 x).2 hx)
  obtain ⟨r1, r2⟩ := regular_spec hu hn
  have hiff : ∀ b, b < t.length ↔ b < (regularChunks out.timeBinIndices.length u).length := by
    intro b; rw [h3.1, g7, r1, g5]
  have hl : t.length = (regularChunks out.timeBinIndices.length u).length := by
    apply Nat.le_antisymm
    · by_contra hc
      have := (hiff _).1 (by omega : (regularChunks out.timeBinIndices.length u).length < t.length)
      omega
    · by_contra hc
      have := (hiff _).2 (by omega : t.length < (regularChunks out.timeBinIndices.length u).length)
      omega
  have : regularChunks out.timeBinIndices.length u = t := by
    refine List.ext_getElem hl.symm fun b hb hb' => ?_
    have e1 := r2 b ((r1 b).1 hb)
    have e2 := h2 b hb'
    rw [List.getD_eq_getElem _ _ hb] at e1
    rw [List.getD_eq_getElem _ _ hb'] at e2
    rw [e1, e2]
  rw [this]
  exact ⟨h1, h3⟩

private theorem dirs_whole {n : Nat} (h0 : 0 < n) (h : n ≤ 3) :
    checkWhole (regularChunks n 3) = .ok () ∧ (regularChunks n 3).sum = n := by
  have : n = 1 ∨ n = 2 ∨ n = 3 := by omega
  rcases this with rfl | rfl | rfl <;> exact ⟨rfl, rfl⟩

theorem one_whole (n : Nat) : checkWhole [n] = .ok () := by simp [checkWhole]

/-! ## C167 -/

section
variable {α K : Type} [LinearOrder α] [Field K] [StarRing K]

private theorem four_block {tC rC cC kC jA jD mD : List Nat} {idx cnt ant1 ant2 : Nat → Nat} {jones : Jones K}
    {mod : Nat → Nat → Nat → Matrix (Fin 2) (Fin 2) K} {d : DaskVis K}
    (h : daskCorruptVis tC rC cC kC jA jD mD idx cnt ant1 ant2 jones (.five mod) = .ok d) {i k l : Nat} {b : Vis K}
    (hb : d.block i k l = .ok b) : ∃ v, b = .four v := by
  unfold daskCorruptVis at h
  repeat' split at h
  all_goals try (cases h; done)
  cases h
  simp only [ModelVis.block] at hb
  unfold corruptVis at hb
  repeat' split at hb
  all_goals first
    | (cases hb; done)
    | (cases hb; exact ⟨_, rfl⟩)
    | simp_all

omit [Field K] [StarRing K] in
/-- The bins of the times: those of a table in order hold the rows of each time. -/
theorem bins_of_times (time ut : List α) (hut : IsDistinct time ut) (hne : time ≠ []) (u : Nat) (hu : 0 < u) :
    ∃ out, chunkifyRows time u = .ok out ∧ out.rowChunks.sum = time.length ∧
      (regularChunks out.timeBinIndices.length u).sum = ut.length ∧
      Fits (fun t => out.timeBinIndices.getD t 0) (fun t => out.timeBinCounts.getD t 0)
        (regularChunks out.timeBinIndices.length u) out.rowChunks ∧
      (∀ r < time.length, ∃ k < ut.length,
        InBin (fun t => out.timeBinIndices.getD t 0) (fun t => out.timeBinCounts.getD t 0) k r) ∧
      (time.Pairwise (· ≤ ·) → ∀ (k : Nat) (hk : k < ut.length) (r : Nat) (hr : r < time.length), time[r] = ut[k] →
        InBin (fun t => out.timeBinIndices.getD t 0) (fun t => out.timeBinCounts.getD t 0) k r) ∧
      ∀ k k', k < k' → k' < ut.length → ∀ r r',
        InBin (fun t => out.timeBinIndices.getD t 0) (fun t => out.timeBinCounts.getD t 0) k r →
        InBin (fun t => out.timeBinIndices.getD t 0) (fun t => out.timeBinCounts.getD t 0) k' r' → r < r' := by
  obtain ⟨out, ut', g1, g2, g3, g4, g5, g6, g7, g8, g9⟩ := C26_chunkify_rows time u hu
  have hu' : ut' = ut := by
    refine List.Perm.eq_of_pairwise (fun a b _ _ h1 h2 => absurd h1 (lt_asymm h2)) g2 hut.1 ?_
    exact (List.perm_ext_iff_of_nodup (g2.imp ne_of_lt) (hut.1.imp ne_of_lt)).2 fun x => (g3 x).trans (hut.2 x).symm
  subst hu'
  obtain ⟨f1, f2⟩ := regular_fits time hne u hu out g1
  have hsum : (regularChunks out.timeBinIndices.length u).sum = ut'.length := f1.trans g5
  refine ⟨out, g1, g6, hsum, f2, ?_, ?_, ?_⟩
  · intro r hr
    rw [← g6] at hr
    obtain ⟨i, x, hi, hx, rfl⟩ := exists_block out.rowChunks r hr
    obtain ⟨_, hb⟩ := f2.2.2.2 i (by rw [f2.1]; exact hi)
    obtain ⟨t, ht, hin⟩ := (hb x).1 hx
    refine ⟨_, ?_, hin⟩
    rw [← hsum]
    exact blockOff_lt ht
  · intro hs k hk r hr ht
    exact (g9 hs k hk r hr).1 ht
  · intro k k' hkk hk' r r' h1 h2
    have hi : ∀ t < ut'.length, out.timeBinIndices.getD t 0 = psum out.timeBinCounts t := by
      intro t ht
      have ht' : t < out.timeBinCounts.length := by rw [g4, List.length_map]; exact ht
      rw [← binIndices_get out.timeBinCounts t ht']
      have g1' := g1
      unfold chunkifyRows at g1'
      simp only [dif_pos hu] at g1'
      cases g1'
      rfl
    unfold InBin at h1 h2
    simp only at h1 h2
    rw [hi k (by omega)] at h1
    rw [hi k' hk'] at h2
    have e := psum_succ out.timeBinCounts k
    have := psum_mono out.timeBinCounts (show k + 1 ≤ k' by omega)
    omega

/-- What the program writes, for every way of calling the numpy function. -/
private theorem core (time ut : List α) (hut : IsDistinct time ut) (hne : time ≠ []) (u : Nat) (hu : 0 < u)
    (ant1 ant2 : Nat → Nat) (nchan nant jdir ncorr : Nat) (cols : List (Nat → Nat → Nat → K)) (h0 : cols ≠ [])
    (h3 : cols.length ≤ 3) (model : ModelVis K) (hm : stackModel ncorr cols = .ok model) :
    ∃ (idx cnt : Nat → Nat), IsMin ut.length idx 0 ∧ Disjoint' ut.length idx cnt ∧
      (∀ r < time.length, ∃ k < ut.length, InBin idx cnt k r) ∧
      (time.Pairwise (· ≤ ·) → ∀ (k : Nat) (hk : k < ut.length) (r : Nat) (hr : r < time.length),
        time[r] = ut[k] → InBin idx cnt k r) ∧
      (∀ k k', k < k' → k' < ut.length → ∀ r r', InBin idx cnt k r → InBin idx cnt k' r' → r < r') ∧
      ∀ (jones : Jones K) (V : Vis K), corruptVis ut.length idx cnt ant1 ant2 nchan cols.length jones model = .ok V →
        (∀ v, V = .three v → ncorr ≤ 2 → ∃ d, applyGains time u ant1 ant2 nchan nant jdir ncorr jones cols = .ok d ∧
          Written d time.length nchan ncorr v) ∧
        (∀ v, V = .four v → ncorr = 4 → ∃ d, applyGains time u ant1 ant2 nchan nant jdir ncorr jones cols = .ok d ∧
          Written d time.length nchan 4 fun r nu c => v r nu (Fin.ofNat 2 (c / 2)) (Fin.ofNat 2 c)) := by
  obtain ⟨out, g1, g6, hsum, hfit, n1, n2, n3⟩ := bins_of_times time ut hut hne u hu
  have hlen : 0 < cols.length := List.length_pos_iff.2 h0
  obtain ⟨w1, w2⟩ := dirs_whole hlen h3
  obtain ⟨e1, e2, e3, e4⟩ := id hfit
  rw [hsum] at e2 e3
  refine ⟨_, _, e2, e3, n1, n2, n3, ?_⟩
  · intro jones V hV
    rw [← hsum, ← w2] at hV
    have hV' := fun corrs hcorr => C110_corrupt_vis (rowChunks := out.rowChunks) (chanChunks := [nchan]) (corrChunks := corrs)
      (jAnt := [nant]) (jDir := [jdir]) (mDir := regularChunks cols.length 3) jones model V hfit (one_whole _)
      (one_whole _) w1 hcorr (by simpa using hV)
    constructor
    · rintro v rfl hc
      have hnd : model.ndim = 5 → [ncorr] = [2] := by
        unfold stackModel at hm
        rw [if_neg (by omega)] at hm
        cases hm
        intro h
        cases h
      obtain ⟨d, d1, d2, d3, d4, d5⟩ := hV' [ncorr] hnd
      refine ⟨d, ?_, by rw [d2, g6], d3, d4, d5⟩
      unfold applyGains
      rw [g1]
      simp only [hm, if_neg (show ¬ 2 < ncorr by omega)]
      show (daskCorruptVis _ _ _ _ _ _ _ _ _ _ _ _ _ >>= _) = _
      rw [d1]
      rfl
    · rintro v rfl rfl
      obtain ⟨d, d1, d2, d3, d4, d5⟩ := hV' [2] fun _ => rfl
      refine ⟨{ d with corrChunks := [4], block := fun i k l => (d.block i k l).map flattenVis }, ?_, by rw [← g6, ← d2], d3, rfl, ?_⟩
      · unfold applyGains
        rw [g1]
        simp only [hm, if_pos (show 2 < 4 by omega)]
        show (daskCorruptVis _ _ _ _ _ _ _ _ _ _ _ _ _ >>= _) = _
        rw [d1]
        rfl
      · intro i hi k hk l hl
        have hl0 : l = 0 := by simpa using hl
        subst hl0
        obtain ⟨b, b1, b2⟩ := d5 i hi k hk 0 (by rw [d4]; simp)
        refine ⟨flattenVis b, by show Except.map _ _ = _; rw [b1]; rfl, fun x hx y hy z hz w => ?_⟩
        have hz4 : z < 4 := by simpa [blockSize] using hz
        have := b2 x hx y hy (z / 2) (by rw [d4]; simp [blockSize]; omega) (Fin.ofNat 2 z)
        rw [d4] at this
        simp only [blockOff, List.take_zero, List.sum_nil, Nat.zero_add] at this ⊢
        have hb : ∃ vb, b = .four vb := by
          unfold stackModel at hm
          rw [if_pos (by omega), if_pos rfl] at hm
          cases hm
          exact four_block d1 b1
        obtain ⟨vb, rfl⟩ := hb
        exact this

omit [Field K] [StarRing K] in
private theorem asMatrix_flat (w : Matrix (Fin 2) (Fin 2) K) :
    asMatrix (fun c => w (Fin.ofNat 2 (c / 2)) (Fin.ofNat 2 c)) = w := by
  ext a b
  fin_cases a <;> fin_cases b <;> rfl

variable (time ut : List α) (hut : IsDistinct time ut) (hne : time ≠ []) (u : Nat) (hu : 0 < u)
    (ant1 ant2 : Nat → Nat) (nchan nant jdir : Nat) (cols : List (Nat → Nat → Nat → K)) (h0 : cols ≠ [])

include hut hne hu h0

/-- **C167** With one or two correlations, at most three model columns and times in order, every correlation of a row is
the sum over the columns of the model times the gain of the first antenna and the conjugate gain of the second at the
time of the row. -/
theorem C167_hands_partial (h3 : cols.length ≤ 3) (hs : time.Pairwise (· ≤ ·)) (ncorr : Nat) (hc : ncorr ≤ 2)
    (j : Nat → Nat → Nat → Nat → Nat → K) :
    ∃ d v, applyGains time u ant1 ant2 nchan nant jdir ncorr (.five j) cols = .ok d ∧
      Written d time.length nchan ncorr v ∧
      ∀ (r : Nat) (hr : r < time.length) (k : Nat) (hk : k < ut.length), time[r] = ut[k] → ∀ nu < nchan, ∀ c < ncorr,
        v r nu c = ∑ s ∈ Finset.range cols.length,
          j k (ant1 r) nu s c * (cols.getD s fun _ _ _ => 0) r nu c * star (j k (ant2 r) nu s c) := by
  obtain ⟨idx, cnt, m1, m2, _, m4, _, m5⟩ := core time ut hut hne u hu ant1 ant2 nchan nant jdir ncorr cols h0 h3
    (.four fun r nu s c => (cols.getD s fun _ _ _ => 0) r nu c) (by unfold stackModel; rw [if_neg (by omega)])
  obtain ⟨v, v1, v2, _⟩ := C21_corrupt_diag_diag (ntim := ut.length) (idx := idx) (cnt := cnt) (m := 0) ant1 ant2 nchan
    cols.length ncorr j (fun r nu s c => (cols.getD s fun _ _ _ => 0) r nu c) m1 m2
  obtain ⟨d, d1, d2⟩ := (m5 _ _ v1).1 v rfl hc
  refine ⟨d, v, d1, d2, fun r hr k hk ht nu hnu c hcc => ?_⟩
  have := congrFun (congrFun (v2 k hk r (by rw [Nat.zero_add]; exact m4 hs k hk r hr ht) nu hnu) ⟨c, hcc⟩) ⟨c, hcc⟩
  rw [diagonal_apply_eq, Matrix.sum_apply] at this
  simpa [diagonal_conjTranspose, diagonal_mul_diagonal] using this

/-- **C167** With four correlations and diagonal gains every row is the sum over the columns of the 2x2 models between
the gains of the two antennas. -/
theorem C167_diag_partial (h3 : cols.length ≤ 3) (hs : time.Pairwise (· ≤ ·)) (j : Nat → Nat → Nat → Nat → Nat → K) :
    ∃ d v, applyGains time u ant1 ant2 nchan nant jdir 4 (.five j) cols = .ok d ∧ Written d time.length nchan 4 v ∧
      ∀ (r : Nat) (hr : r < time.length) (k : Nat) (hk : k < ut.length), time[r] = ut[k] → ∀ nu < nchan,
        asMatrix (v r nu) = ∑ s ∈ Finset.range cols.length,
          diagonal (fun c : Fin 2 => j k (ant1 r) nu s c) * asMatrix ((cols.getD s fun _ _ _ => 0) r nu) *
            (diagonal fun c : Fin 2 => j k (ant2 r) nu s c)ᴴ := by
  obtain ⟨idx, cnt, m1, m2, _, m4, _, m5⟩ := core time ut hut hne u hu ant1 ant2 nchan nant jdir 4 cols h0 h3
    (.five fun r nu s => asMatrix ((cols.getD s fun _ _ _ => 0) r nu)) rfl
  obtain ⟨v, v1, v2, _⟩ := C21_corrupt_diag (ntim := ut.length) (idx := idx) (cnt := cnt) (m := 0) ant1 ant2 nchan
    cols.length j (fun r nu s => asMatrix ((cols.getD s fun _ _ _ => 0) r nu)) m1 m2
  obtain ⟨d, d1, d2⟩ := (m5 _ _ v1).2 v rfl rfl
  refine ⟨d, _, d1, d2, fun r hr k hk ht nu hnu => ?_⟩
  rw [asMatrix_flat]
  exact v2 k hk r (by rw [Nat.zero_add]; exact m4 hs k hk r hr ht) nu hnu

/-- **C167** The same with full gains. -/
theorem C167_full_partial (h3 : cols.length ≤ 3) (hs : time.Pairwise (· ≤ ·))
    (j : Nat → Nat → Nat → Nat → Matrix (Fin 2) (Fin 2) K) :
    ∃ d v, applyGains time u ant1 ant2 nchan nant jdir 4 (.six j) cols = .ok d ∧ Written d time.length nchan 4 v ∧
      ∀ (r : Nat) (hr : r < time.length) (k : Nat) (hk : k < ut.length), time[r] = ut[k] → ∀ nu < nchan,
        asMatrix (v r nu) = ∑ s ∈ Finset.range cols.length,
          j k (ant1 r) nu s * asMatrix ((cols.getD s fun _ _ _ => 0) r nu) * (j k (ant2 r) nu s)ᴴ := by
  obtain ⟨idx, cnt, m1, m2, _, m4, _, m5⟩ := core time ut hut hne u hu ant1 ant2 nchan nant jdir 4 cols h0 h3
    (.five fun r nu s => asMatrix ((cols.getD s fun _ _ _ => 0) r nu)) rfl
  obtain ⟨v, v1, v2, _⟩ := C21_corrupt_full (ntim := ut.length) (idx := idx) (cnt := cnt) (m := 0) ant1 ant2 nchan
    cols.length j (fun r nu s => asMatrix ((cols.getD s fun _ _ _ => 0) r nu)) m1 m2
  obtain ⟨d, d1, d2⟩ := (m5 _ _ v1).2 v rfl rfl
  refine ⟨d, _, d1, d2, fun r hr k hk ht nu hnu => ?_⟩
  rw [asMatrix_flat]
  exact v2 k hk r (by rw [Nat.zero_add]; exact m4 hs k hk r hr ht) nu hnu

omit hut hne h0 in
/-- **C167** fails for more than three model columns: the model is cut into pieces of three directions, which are
refused. -/
theorem C167_directions_violated (h3 : 3 < cols.length) (ncorr : Nat) (hc : ncorr = 1 ∨ ncorr = 2 ∨ ncorr = 4)
    (j : Nat → Nat → Nat → Nat → Nat → K) :
    applyGains time u ant1 ant2 nchan nant jdir ncorr (.five j) cols = .error .valueError := by
  obtain ⟨out, _, g1, _⟩ := C26_chunkify_rows time u hu
  obtain ⟨r1, r2⟩ := regular_spec (n := cols.length) (u := 3) (by omega) (by omega)
  have hw : checkWhole (regularChunks cols.length 3) = .error .valueError := by
    refine checkWhole_error (fun h => ?_) ?_
    · have := (r1 0).2 (by omega); rw [h] at this; simp at this
    · have e0 := r2 0 (by omega)
      have e1 := r2 1 (by omega)
      have l2 : 1 < (regularChunks cols.length 3).length := (r1 1).2 (by omega)
      generalize regularChunks cols.length 3 = l at *
      match l, l2 with
      | a :: b :: l, _ =>
        simp only [List.getD_cons_zero, List.getD_cons_succ, List.sum_cons] at *
        omega
  unfold applyGains
  rw [g1]
  have hcore : ∀ (model : ModelVis K) corrs, (model.ndim = 4 ∨ model.ndim = 5) →
      daskCorruptVis (regularChunks out.timeBinIndices.length u) out.rowChunks [nchan] corrs [nant] [jdir]
        (regularChunks cols.length 3) (fun t => out.timeBinIndices.getD t 0) (fun t => out.timeBinCounts.getD t 0) ant1 ant2
        (.five j) model = .error .valueError := by
    intro model corrs hd
    unfold daskCorruptVis
    rw [one_whole, one_whole, hw]
    rcases hd with h | h <;> rw [h] <;> rfl
  rcases hc with rfl | rfl | rfl
  · simp only [stackModel, if_neg (show ¬ 2 < 1 by omega)]
    show (daskCorruptVis _ _ _ _ _ _ _ _ _ _ _ _ _ >>= _) = _
    rw [hcore _ _ (Or.inl rfl)]; rfl
  · simp only [stackModel, if_neg (show ¬ 2 < 2 by omega)]
    show (daskCorruptVis _ _ _ _ _ _ _ _ _ _ _ _ _ >>= _) = _
    rw [hcore _ _ (Or.inl rfl)]; rfl
  · simp only [stackModel, if_pos (show 2 < 4 by omega), if_true]
    show (daskCorruptVis _ _ _ _ _ _ _ _ _ _ _ _ _ >>= _) = _
    rw [hcore _ _ (Or.inr rfl)]; rfl

/-- **C167** fails whenever the times of the rows are not in order: some row gets the gains of another time. -/
theorem C167_unsorted_violated (h3 : cols.length ≤ 3) (hs : ¬ time.Pairwise (· ≤ ·)) (ncorr : Nat) (hc : ncorr ≤ 2) :
    ∃ (r : Nat) (hr : r < time.length) (k : Nat) (hk : k < ut.length), time[r] ≠ ut[k] ∧
      ∀ j : Nat → Nat → Nat → Nat → Nat → K,
        ∃ d v, applyGains time u ant1 ant2 nchan nant jdir ncorr (.five j) cols = .ok d ∧
          Written d time.length nchan ncorr v ∧ ∀ nu < nchan, ∀ c < ncorr,
            v r nu c = ∑ s ∈ Finset.range cols.length,
              j k (ant1 r) nu s c * (cols.getD s fun _ _ _ => 0) r nu c * star (j k (ant2 r) nu s c) := by
  obtain ⟨idx, cnt, m1, m2, m3, _, m4, m5⟩ := core time ut hut hne u hu ant1 ant2 nchan nant jdir ncorr cols h0 h3
    (.four fun r nu s c => (cols.getD s fun _ _ _ => 0) r nu c) (by unfold stackModel; rw [if_neg (by omega)])
  obtain ⟨r, hr, k, hk, hin, hneq⟩ : ∃ (r : Nat) (hr : r < time.length) (k : Nat) (hk : k < ut.length),
      InBin idx cnt k r ∧ time[r] ≠ ut[k] := by
    by_contra hcon
    push Not at hcon
    refine hs (List.pairwise_iff_getElem.2 fun i j hi hj hij => ?_)
    obtain ⟨k, hk, b⟩ := m3 i hi
    obtain ⟨k', hk', b'⟩ := m3 j hj
    rw [hcon i hi k hk b, hcon j hj k' hk' b']
    rcases Nat.lt_trichotomy k k' with h | h | h
    · exact (List.pairwise_iff_getElem.1 hut.1 k k' hk hk' h).le
    · subst h; exact le_refl _
    · have := m4 k' k h hk j i b' b; omega
  refine ⟨r, hr, k, hk, hneq, fun j => ?_⟩
  obtain ⟨v, v1, v2, _⟩ := C21_corrupt_diag_diag (ntim := ut.length) (idx := idx) (cnt := cnt) (m := 0) ant1 ant2 nchan
    cols.length ncorr j (fun r nu s c => (cols.getD s fun _ _ _ => 0) r nu c) m1 m2
  obtain ⟨d, d1, d2⟩ := (m5 _ _ v1).1 v rfl hc
  refine ⟨d, v, d1, d2, fun nu hnu c hcc => ?_⟩
  have := congrFun (congrFun (v2 k hk r (by rw [Nat.zero_add]; exact hin) nu hnu) ⟨c, hcc⟩) ⟨c, hcc⟩
  rw [diagonal_apply_eq, Matrix.sum_apply] at this
  simpa [diagonal_conjTranspose, diagonal_mul_diagonal] using this

omit hut hne h0 in
/-- **C167** Numbers of correlations other than one, two or four are refused, as are chunks of no times and full gains
for one or two correlations. -/
theorem C167_refused (ncorr : Nat) (jones : Jones K) :
    (2 < ncorr → ncorr ≠ 4 → applyGains time u ant1 ant2 nchan nant jdir ncorr jones cols = .error .valueError) ∧
    applyGains time 0 ant1 ant2 nchan nant jdir ncorr jones cols = .error .valueError ∧
    (ncorr ≤ 2 → jones.ndim = 6 → applyGains time u ant1 ant2 nchan nant jdir ncorr jones cols = .error .runtimeError) := by
  obtain ⟨out, _, g1, _⟩ := C26_chunkify_rows time u hu
  refine ⟨fun h1 h2 => ?_, rfl, fun h1 h2 => ?_⟩
  · unfold applyGains
    rw [g1]
    simp only [stackModel, if_pos h1, if_neg h2]
    rfl
  · unfold applyGains
    rw [g1]
    simp only [stackModel, if_neg (show ¬ 2 < ncorr by omega)]
    cases jones with
    | five j => cases h2
    | six j => rfl

end

/-- Rows in order of time: two baselines at each of two times. -/
example : IsDistinct [1, 1, 5, 5] [1, 5] ∧ ([1, 1, 5, 5] : List Nat).Pairwise (· ≤ ·) :=
  ⟨⟨by simp, by simp⟩, by simp⟩

end Verif.Examples
