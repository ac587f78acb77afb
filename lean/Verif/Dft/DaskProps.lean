/-
C94: the dask versions of the direct Fourier transforms.
-/
import Verif.Dft.Props
import Mathlib.Tactic.Push

set_option autoImplicit false

namespace Verif.Dft

open Verif.Rime (twoPiOverC delay)
open Finset (range)

/-- The position of element `x` of block `i`: every position below the total is reached. -/
private theorem off_lt {chunks : List Nat} {i x : Nat} (hx : x < size chunks i) : off chunks i + x < chunks.sum := by
  induction chunks generalizing i with
  | nil => simp [size] at hx
  | cons c l ih =>
    cases i with
    | zero => simp [size] at hx; simp [off]; omega
    | succ i =>
      have h1 : x < size l i := by simpa [size] using hx
      have := ih h1
      simp only [off, List.take_succ_cons, List.sum_cons] at this ⊢
      omega

private theorem sum_blocks (chunks : List Nat) (g : Nat → ℝ) :
    ∑ i ∈ range chunks.length, ∑ r ∈ range (size chunks i), g (off chunks i + r) = ∑ r ∈ range chunks.sum, g r := by
  induction chunks generalizing g with
  | nil => simp
  | cons c l ih =>
    rw [List.length_cons, Finset.sum_range_succ', List.sum_cons, Finset.sum_range_add, ← ih fun r => g (c + r), add_comm]
    congr 1
    · simp [size, off]
    · refine Finset.sum_congr rfl fun i _ => ?_
      simp [size, off, add_assoc]

/-- **C94** (partial: only while the correlations are in one chunk, see `C94_violated`). For every chunking of rows and
channels, and every source, the dask `vis_to_im` is the image of all rows. -/
theorem C94_vis_to_im_partial (rchunks fchunks : List Nat) (nsrc ncorr : Nat) (vis : Nat → Nat → Nat → ℂ)
    (uvw : Nat → ℝ × ℝ × ℝ) (lm : Nat → ℝ × ℝ) (freq : Nat → ℝ) (flags : Nat → Nat → Nat → Bool) (convention : String)
    (hc : convention = "fourier" ∨ convention = "casa") (hlm : ∀ s < nsrc, (lm s).1 ^ 2 + (lm s).2 ^ 2 ≤ 1) (j : Nat) :
    ∃ D I, daskVisToIm rchunks fchunks [ncorr] nsrc vis uvw lm freq flags convention j 0 = .ok D ∧
      visToIm rchunks.sum nsrc fchunks.sum ncorr vis uvw lm freq flags convention = .ok I ∧
      ∀ s < nsrc, ∀ nu < size fchunks j, ∀ c < ncorr, D s nu c = I s (off fchunks j + nu) c := by
  classical
  obtain ⟨sg, hsg⟩ : ∃ sg, Sign convention sg := by
    rcases hc with h | h
    · exact ⟨-1, Or.inl ⟨h, rfl⟩⟩
    · exact ⟨1, Or.inr ⟨h, rfl⟩⟩
  obtain ⟨I, hI, eI⟩ := C86_vis_to_im rchunks.sum nsrc fchunks.sum ncorr vis uvw lm freq flags convention sg hsg hlm
  have hB : ∀ i, ∃ B, visToImBlock rchunks fchunks [ncorr] nsrc vis uvw lm freq flags convention i j 0 = .ok B ∧
      ∀ s < nsrc, ∀ nu < size fchunks j, ∀ c < ncorr, B s nu c = ∑ r ∈ range (size rchunks i),
        if Unflagged ncorr flags (off rchunks i + r) (off fchunks j + nu) then
          (delay (-sg) (lm s).1 (lm s).2 (uvw (off rchunks i + r)).1 (uvw (off rchunks i + r)).2.1
            (uvw (off rchunks i + r)).2.2 (freq (off fchunks j + nu)) * vis (off rchunks i + r) (off fchunks j + nu) c).re
        else 0 := by
    intro i
    obtain ⟨B, h1, h2⟩ := C86_vis_to_im (size rchunks i) nsrc (size fchunks j) ncorr
      (fun r nu c => vis (off rchunks i + r) (off fchunks j + nu) (off [ncorr] 0 + c)) (fun r => uvw (off rchunks i + r))
      lm (fun nu => freq (off fchunks j + nu))
      (fun r nu c => flags (off rchunks i + r) (off fchunks j + nu) (off [ncorr] 0 + c)) convention sg hsg hlm
    refine ⟨B, h1, fun s hs nu hnu c hc => ?_⟩
    rw [h2 s hs nu hnu c hc]
    have e0 : off [ncorr] 0 = 0 := rfl
    refine Finset.sum_congr rfl fun r _ => ?_
    have hiff : Unflagged ncorr (fun r nu c => flags (off rchunks i + r) (off fchunks j + nu) (off [ncorr] 0 + c)) r nu ↔
        Unflagged ncorr flags (off rchunks i + r) (off fchunks j + nu) := by
      unfold Unflagged
      rw [e0]
      simp only [zero_add]
    by_cases hu : Unflagged ncorr flags (off rchunks i + r) (off fchunks j + nu)
    · rw [if_pos hu, if_pos (hiff.mpr hu), e0, zero_add]
    · rw [if_neg hu, if_neg fun h => hu (hiff.mp h)]
  choose B hB1 hB2 using hB
  have hD : ∃ D, daskVisToIm rchunks fchunks [ncorr] nsrc vis uvw lm freq flags convention j 0 = .ok D ∧
      ∀ s nu c, D s nu c = ∑ i ∈ range rchunks.length, B i s nu c := by
    unfold daskVisToIm
    refine forRangeM_ok_inv (P := fun k (D : Nat → Nat → Nat → ℝ) => ∀ s nu c, D s nu c = ∑ i ∈ range k, B i s nu c)
      (fun _ _ _ => by simp) ?_
    intro i D _ hP
    rw [hB1 i]
    exact ⟨_, rfl, fun s nu c => by rw [hP, Finset.sum_range_succ]⟩
  obtain ⟨D, hD1, hD2⟩ := hD
  refine ⟨D, I, hD1, hI, fun s hs nu hnu c hc => ?_⟩
  rw [hD2, eI s hs _ (off_lt hnu) c hc, ← sum_blocks rchunks]
  exact Finset.sum_congr rfl fun i _ => hB2 i s hs nu hnu c hc

/-- **C94** refuted for chunked correlations: the dask version discards a sample only if a correlation of the same chunk is
flagged. With two correlations in two chunks, the second flagged, the first image is 1 instead of 0. -/
theorem C94_violated :
    ∃ (vis : Nat → Nat → Nat → ℂ) (uvw : Nat → ℝ × ℝ × ℝ) (lm : Nat → ℝ × ℝ) (freq : Nat → ℝ)
      (flags : Nat → Nat → Nat → Bool) (D I : Nat → Nat → Nat → ℝ),
      daskVisToIm [1] [1] [1, 1] 1 vis uvw lm freq flags "fourier" 0 0 = .ok D ∧
      visToIm 1 1 1 2 vis uvw lm freq flags "fourier" = .ok I ∧ D 0 0 0 = 1 ∧ I 0 0 0 = 0 := by
  let vis : Nat → Nat → Nat → ℂ := fun _ _ _ => 1
  let flags : Nat → Nat → Nat → Bool := fun _ _ c => c == 1
  obtain ⟨I, hI, eI⟩ := C86_vis_to_im 1 1 1 2 vis (fun _ => (0, 0, 0)) (fun _ => (0, 0)) (fun _ => 1) flags "fourier" (-1)
    (Or.inl ⟨rfl, rfl⟩) (by simp)
  obtain ⟨B, hB, eB⟩ := C86_vis_to_im 1 1 1 1 vis (fun _ => (0, 0, 0)) (fun _ => (0, 0)) (fun _ => 1)
    (fun r nu c => flags (0 + r) (0 + nu) (0 + c)) "fourier" (-1) (Or.inl ⟨rfl, rfl⟩) (by simp)
  refine ⟨vis, fun _ => (0, 0, 0), fun _ => (0, 0), fun _ => 1, flags, fun s nu c => 0 + B s nu c, I, ?_, hI, ?_, ?_⟩
  · unfold daskVisToIm
    rw [show ([1] : List Nat).length = 0 + 1 from rfl, forRangeM_succ, forRangeM_zero]
    have : visToImBlock [1] [1] [1, 1] 1 vis (fun _ => (0, 0, 0)) (fun _ => (0, 0)) (fun _ => 1) flags "fourier" 0 0 0 =
        .ok B := hB
    show (match visToImBlock [1] [1] [1, 1] 1 vis (fun _ => (0, 0, 0)) (fun _ => (0, 0)) (fun _ => 1) flags "fourier"
      0 0 0 with
      | .error e => Except.error e
      | .ok b => Except.ok fun s nu c => 0 + b s nu c) = _
    rw [this]
  · dsimp only
    rw [eB 0 (by omega) 0 (by omega) 0 (by omega), Finset.sum_range_one, if_pos]
    · simp [vis, delay]
    · intro c hc
      have : c = 0 := by omega
      subst this
      rfl
  · rw [eI 0 (by omega) 0 (by omega) 0 (by omega), Finset.sum_range_one, if_neg]
    intro h
    have := h 1 (by omega)
    simp [flags] at this

/-- **C94**: for every chunking of rows, channels and correlations, every block of the dask `im_to_vis` is the block of the
visibilities of all sources. -/
theorem C94_im_to_vis_partial (rchunks fchunks cchunks : List Nat) (nsrc : Nat) (image : Nat → Nat → Nat → ℂ)
    (uvw : Nat → ℝ × ℝ × ℝ) (lm : Nat → ℝ × ℝ) (freq : Nat → ℝ) (convention : String)
    (hc : convention = "fourier" ∨ convention = "casa") (hlm : ∀ s < nsrc, (lm s).1 ^ 2 + (lm s).2 ^ 2 ≤ 1)
    (i j k : Nat) :
    ∃ D V, daskImToVis rchunks fchunks cchunks [nsrc] [nsrc] fchunks image uvw lm freq convention i j k = .ok D ∧
      imToVis rchunks.sum nsrc fchunks.sum cchunks.sum image uvw lm freq convention = .ok V ∧
      ∀ r < size rchunks i, ∀ nu < size fchunks j, ∀ c < size cchunks k,
        D r nu c = V (off rchunks i + r) (off fchunks j + nu) (off cchunks k + c) := by
  obtain ⟨sg, hsg⟩ : ∃ sg, Sign convention sg := by
    rcases hc with h | h
    · exact ⟨-1, Or.inl ⟨h, rfl⟩⟩
    · exact ⟨1, Or.inr ⟨h, rfl⟩⟩
  obtain ⟨V, hV, eV⟩ := C86_im_to_vis rchunks.sum nsrc fchunks.sum cchunks.sum image uvw lm freq convention sg hsg hlm
  obtain ⟨D, hD, eD⟩ := C86_im_to_vis (size rchunks i) nsrc (size fchunks j) (size cchunks k)
    (fun s nu c => image s (off fchunks j + nu) (off cchunks k + c)) (fun r => uvw (off rchunks i + r)) lm
    (fun nu => freq (off fchunks j + nu)) convention sg hsg hlm
  refine ⟨D, V, ?_, hV, fun r hr nu hnu c hc => ?_⟩
  · unfold daskImToVis
    rw [if_neg (by simp), if_neg (by simp), if_neg (by simp), if_neg (by simp)]
    exact hD
  · rw [eD r hr nu hnu c hc, eV _ (off_lt hr) _ (off_lt hnu) _ (off_lt hc)]

/-- **C94**: sources in more than one chunk, different numbers of sources and different channel chunks are rejected with
`ValueError` before anything is computed. -/
theorem C94_rejects_partial (rchunks fchunks fchunks' cchunks schunks lchunks : List Nat) (image : Nat → Nat → Nat → ℂ)
    (uvw : Nat → ℝ × ℝ × ℝ) (lm : Nat → ℝ × ℝ) (freq : Nat → ℝ) (convention : String) (i j k : Nat)
    (h : (∃ a b rest, schunks = a :: b :: rest ∧ 0 < b) ∨ (∃ a b rest, lchunks = a :: b :: rest ∧ 0 < b) ∨
      schunks.sum ≠ lchunks.sum ∨ fchunks' ≠ fchunks) :
    daskImToVis rchunks fchunks cchunks schunks lchunks fchunks' image uvw lm freq convention i j k =
      .error .valueError := by
  unfold daskImToVis
  by_cases h1 : lchunks.headD 0 = lchunks.sum
  · by_cases h2 : schunks.headD 0 = schunks.sum
    · by_cases h3 : schunks.headD 0 = lchunks.headD 0
      · by_cases h4 : fchunks' = fchunks
        · exfalso
          rcases h with ⟨a, b, rest, rfl, hb⟩ | ⟨a, b, rest, rfl, hb⟩ | h | h
          · simp at h2; omega
          · simp at h1; omega
          · exact h (by rw [← h1, ← h2, h3])
          · exact h h4
        · rw [if_neg (by simpa using h1), if_neg (by simpa using h2), if_neg (by simpa using h3), if_pos h4]
      · rw [if_neg (by simpa using h1), if_neg (by simpa using h2), if_pos h3]
    · rw [if_neg (by simpa using h1), if_pos h2]
  · rw [if_pos h1]

/-- Non-vacuity: five rows in three blocks; the first block of channels. -/
example : ∃ D I, daskVisToIm [2, 1, 2] [2, 3] [4] 1 (fun _ _ _ => 1) (fun _ => (1, 2, 3)) (fun _ => (0, 0)) (fun _ => 1)
      (fun r _ _ => r == 3) "casa" 1 0 = .ok D ∧
    visToIm 5 1 5 4 (fun _ _ _ => 1) (fun _ => (1, 2, 3)) (fun _ => (0, 0)) (fun _ => 1)
      (fun r _ _ => r == 3) "casa" = .ok I ∧
    ∀ s < 1, ∀ nu < 3, ∀ c < 4, D s nu c = I s (2 + nu) c :=
  C94_vis_to_im_partial [2, 1, 2] [2, 3] 1 4 (fun _ _ _ => 1) (fun _ => (1, 2, 3)) (fun _ => (0, 0)) (fun _ => 1)
    (fun r _ _ => r == 3) "casa" (Or.inr rfl) (by simp) 1

end Verif.Dft
