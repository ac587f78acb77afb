/-
C118: the CUDA versions of phase_delay and feed_rotation compute what the CPU versions do.
-/
import Verif.Cuda.Terms
import Verif.Cuda.Lemmas

set_option autoImplicit false

namespace Verif.Cuda

open Verif.Rime

/-- The thread `(0, y)` of an active thread `(x, y)` is active, and so is `(x, 0)`. -/
private theorem outside_mono {uvw freq : GArr ℝ} {r c r' c' : Nat} (h : phaseOutside uvw freq r c = false) (hr : r' ≤ r)
    (hc : c' ≤ c) : phaseOutside uvw freq r' c' = false := by
  simp [phaseOutside] at h ⊢
  omega

/-- There is an execution. -/
theorem phaseGpu_exists (a b : Bool) (lm uvw frequency : GArr ℝ) : ∃ r, PhaseGpu a b lm uvw frequency r :=
  launch_exists (phaseKernel (phaseBlock a b) lm uvw frequency) _ _

/-- There is an execution. -/
theorem feedGpu_exists (a b : String) (pa : GArr ℝ) : ∃ r, FeedGpu a b pa r := by
  unfold FeedGpu
  split
  · exact ⟨_, rfl⟩
  · split
    · exact ⟨_, rfl⟩
    · exact launch_exists (feedKernel _ (b == "circular") (size pa.shape) pa.flat) _ _

theorem phaseBlock_pos (a b : Bool) : 0 < (phaseBlock a b).x ∧ 0 < (phaseBlock a b).y ∧ 0 < (phaseBlock a b).z := by
  cases a <;> cases b <;> decide

theorem C118_phase_partial (freqSingle uvwSingle : Bool) (lm uvw frequency : GArr ℝ) (nsrc nrow nchan : Nat)
    (hlm : lm.shape = [nsrc, 2]) (huvw : uvw.shape = [nrow, 3]) (hf : frequency.shape = [nchan])
    (hclm : lm.Contiguous) (hcuvw : uvw.Contiguous) (hfit : Fits ⟨nchan, nrow, 1⟩ (phaseBlock freqSingle uvwSingle))
    (r : Except PyErr (Nat × Nat × Nat → ℂ)) (hr : PhaseGpu freqSingle uvwSingle lm uvw frequency r) :
    ∃ out ref, r = .ok out ∧
      phaseDelay (fun s => (lm.at [s, 0], lm.at [s, 1])) (fun r => (uvw.at [r, 0], uvw.at [r, 1], uvw.at [r, 2]))
        (fun f => frequency.at [f]) "fourier" = .ok ref ∧
      ∀ s < nsrc, ∀ r < nrow, ∀ f < nchan, out (s, r, f) = ref s r f := by
  obtain ⟨hbx, hby, hbz⟩ := phaseBlock_pos freqSingle uvwSingle
  have hs1 : lm.shape.getD 0 0 = nsrc := by simp [hlm]
  have hs2 : uvw.shape.getD 0 0 = nrow := by simp [huvw]
  have hs3 : frequency.shape.getD 0 0 = nchan := by simp [hf]
  unfold PhaseGpu at hr
  dsimp only at hr
  rw [hs2, hs3] at hr
  obtain ⟨out, rfl, init, sh, out0, ws, hsh, hws, rfl⟩ := launch_ok hbx hby hbz hfit hr
  refine ⟨_, _, rfl, rfl, ?_⟩
  generalize phaseBlock freqSingle uvwSingle = block at *
  -- shared memory
  have hshared : ∀ b ∈ (blocks ⟨nchan, nrow, 1⟩ block).all,
      ∀ y < block.y, ∀ x < block.x, phaseOutside uvw frequency (b.y * block.y + y) (b.x * block.x + x) = false →
        (∀ c < 3, sh b (.uvw y c) = uvw.ptr (3 * (b.y * block.y + y) + c)) ∧
          sh b (.frequency x) = frequency.flat (b.x * block.x + x) := by
    intro b hb y hy x hx ho
    obtain ⟨w, hw, he⟩ := hsh b hb
    constructor
    · intro c hc
      refine shared_eq hw he _ _ ?_ ⟨⟨0, y, 0⟩, mem_all.2 ⟨hbx, hy, hbz⟩, ?_⟩
      · intro t _ e he1 he2
        simp only [phaseKernel] at he1
        split at he1
        · simp at he1
        · rw [List.mem_append] at he1
          rcases he1 with he1 | he1
          · split at he1
            · simp only [List.mem_cons, List.not_mem_nil, or_false] at he1
              rcases he1 with rfl | rfl | rfl <;> simp only [PhaseShared.uvw.injEq] at he2 <;> obtain ⟨rfl, rfl⟩ := he2 <;> rfl
            · simp at he1
          · split at he1
            · simp only [List.mem_cons, List.not_mem_nil, or_false] at he1
              subst he1
              simp at he2
            · simp at he1
      · simp only [phaseKernel]
        rw [if_neg (by rw [outside_mono ho le_rfl (by omega)]; simp)]
        obtain rfl | rfl | rfl : c = 0 ∨ c = 1 ∨ c = 2 := by omega
        all_goals simp
    · refine shared_eq hw he _ _ ?_ ⟨⟨x, 0, 0⟩, mem_all.2 ⟨hx, hby, hbz⟩, ?_⟩
      · intro t _ e he1 he2
        simp only [phaseKernel] at he1
        split at he1
        · simp at he1
        · rw [List.mem_append] at he1
          rcases he1 with he1 | he1
          · split at he1
            · simp only [List.mem_cons, List.not_mem_nil, or_false] at he1
              rcases he1 with rfl | rfl | rfl <;> simp at he2
            · simp at he1
          · split at he1
            · simp only [List.mem_cons, List.not_mem_nil, or_false] at he1
              subst he1
              simp only [PhaseShared.frequency.injEq] at he2
              rw [he2]
            · simp at he1
      · simp only [phaseKernel]
        rw [if_neg (by rw [outside_mono ho (by omega) le_rfl]; simp)]
        simp
  intro s hs r hr f hf'
  have hcell : writeAll out0 ws (s, r, f) =
      phaseValue (lm.at [s, 0]) (lm.at [s, 1]) (uvw.at [r, 0]) (uvw.at [r, 1]) (uvw.at [r, 2]) (frequency.at [f]) := by
    refine out_eq hws _ _ ?_ ?_
    · intro b hb t ht e he hsrf
      rw [mem_all] at ht
      simp only [phaseKernel] at he
      split at he
      · simp at he
      · rename_i ho
        rw [Bool.not_eq_true] at ho
        obtain ⟨hu, hfq⟩ := hshared b hb t.y ht.2.1 t.x ht.1 ho
        rw [hs1] at he
        obtain ⟨s', hs', rfl⟩ := List.mem_map.1 he
        simp only [Prod.mk.injEq] at hsrf
        obtain ⟨rfl, rfl, rfl⟩ := hsrf
        simp only [phaseOutside, hs2, hs3, Bool.or_eq_false_iff, decide_eq_false_iff_not, not_le] at ho
        have il : ∀ c < 2, lm.ptr (2 * s' + c) = lm.at [s', c] := by
          intro c hc
          have := ptr_ravel lm hclm (i := [s', c]) (by rw [hlm]; exact .cons hs (.cons hc .nil))
          rw [← this, hlm]
          simp [ravel, size, Nat.mul_comm]
        have iu : ∀ c < 3, uvw.ptr (3 * (b.y * block.y + t.y) + c) = uvw.at [b.y * block.y + t.y, c] := by
          intro c hc
          have := ptr_ravel uvw hcuvw (i := [b.y * block.y + t.y, c]) (by rw [huvw]; exact .cons ho.1 (.cons hc .nil))
          rw [← this, huvw]
          simp [ravel, size, Nat.mul_comm]
        have ifq : frequency.flat (b.x * block.x + t.x) = frequency.at [b.x * block.x + t.x] := by
          have := flat_ravel frequency (i := [b.x * block.x + t.x]) (by rw [hf]; exact .cons ho.2 .nil)
          rw [← this, hf]
          simp [ravel, size]
        simp only [hu 0 (by omega), hu 1 (by omega), hu 2 (by omega), hfq, ifq, iu 0 (by omega), iu 1 (by omega),
          iu 2 (by omega)]
        rw [← il 0 (by omega), ← il 1 (by omega)]
        rfl
    · have e1 : f / block.x * block.x + f % block.x = f := Nat.div_add_mod' f block.x
      have e2 : r / block.y * block.y + r % block.y = r := Nat.div_add_mod' r block.y
      refine ⟨⟨f / block.x, r / block.y, 0⟩, mem_all.2 ⟨div_lt_grid hbx hf', div_lt_grid hby hr, ?_⟩,
        ⟨f % block.x, r % block.y, 0⟩, mem_all.2 ⟨Nat.mod_lt _ hbx, Nat.mod_lt _ hby, hbz⟩, ?_⟩
      · exact Nat.div_pos (show block.z ≤ 1 + block.z - 1 by omega) hbz
      · simp only [phaseKernel, e1, e2, hs1]
        rw [if_neg (by simp [phaseOutside, huvw, hf]; omega)]
        exact ⟨_, List.mem_map.2 ⟨s, List.mem_range.2 hs, rfl⟩⟩
  rw [hcell]
  show _ = phaseCell _ _ _ _ _ _ _
  unfold phaseValue phaseCell
  simp only [pow_two]

/-- Not vacuous: two sources, two rows and 40 channels, which need two blocks. -/
example : ∃ (lm uvw frequency : GArr ℝ) (r : Except PyErr (Nat × Nat × Nat → ℂ)),
    lm.shape = [2, 2] ∧ uvw.shape = [2, 3] ∧ frequency.shape = [40] ∧ lm.Contiguous ∧ uvw.Contiguous ∧
    Fits ⟨40, 2, 1⟩ (phaseBlock true true) ∧ PhaseGpu true true lm uvw frequency r := by
  let lm : GArr ℝ := .dense [2, 2] fun k => k / 10
  let uvw : GArr ℝ := .dense [2, 3] fun k => k
  let frequency : GArr ℝ := .dense [40] fun k => k + 1
  obtain ⟨r, hr⟩ := phaseGpu_exists true true lm uvw frequency
  exact ⟨lm, uvw, frequency, r, rfl, rfl, rfl, contiguous_dense _ _, contiguous_dense _ _, by simp [Fits, phaseBlock], hr⟩

/-- No launch for other sizes: no row, no channel, or more than 65535 blocks of rows raises an exception. -/
theorem C118_phase_refused (freqSingle uvwSingle : Bool) (lm uvw frequency : GArr ℝ) (nrow nchan : Nat)
    (huvw : uvw.shape = [nrow, 3]) (hf : frequency.shape = [nchan])
    (hfit : ¬ Fits ⟨nchan, nrow, 1⟩ (phaseBlock freqSingle uvwSingle))
    (r : Except PyErr (Nat × Nat × Nat → ℂ)) (hr : PhaseGpu freqSingle uvwSingle lm uvw frequency r) :
    r = .error .runtimeError := by
  obtain ⟨hbx, hby, hbz⟩ := phaseBlock_pos freqSingle uvwSingle
  unfold PhaseGpu at hr
  dsimp only at hr
  rw [huvw, hf] at hr
  exact launch_error hbx hby hbz hfit hr

/-- Not vacuous: 1048561 rows in double precision. -/
example : ¬ Fits ⟨4, 1048561, 1⟩ (phaseBlock false false) := by simp [Fits, phaseBlock]

/-- The first two columns of a row-major array of three columns, `lmn[:, :2]`, are read as if they had no gap between the
rows: with one row of coordinates and one channel, the second source gets phase `-1` instead of `1`, in every execution. -/
theorem C118_phase_violated :
    ∃ lm uvw frequency : GArr ℝ, lm.shape = [2, 2] ∧ lm.strides = [3, 1] ∧ uvw = .dense [1, 3] uvw.mem ∧
      frequency = .dense [1] frequency.mem ∧ (∃ r, PhaseGpu false false lm uvw frequency r) ∧
      ∀ r, PhaseGpu false false lm uvw frequency r → ∃ out ref, r = .ok out ∧
        phaseDelay (fun s => (lm.at [s, 0], lm.at [s, 1])) (fun r => (uvw.at [r, 0], uvw.at [r, 1], uvw.at [r, 2]))
          (fun f => frequency.at [f]) "fourier" = .ok ref ∧ out (1, 0, 0) = -1 ∧ ref 1 0 0 = 1 := by
  let lm : GArr ℝ := ⟨[2, 2], [3, 1], 0, fun k => if k = 2 then 1 / 2 else 0⟩
  let lm' : GArr ℝ := .dense [2, 2] lm.mem
  let uvw : GArr ℝ := .dense [1, 3] fun k => if k = 0 then 1 else 0
  let frequency : GArr ℝ := .dense [1] fun _ => lightspeed
  refine ⟨lm, uvw, frequency, rfl, rfl, rfl, rfl, phaseGpu_exists _ _ _ _ _, ?_⟩
  intro r hr
  -- the kernel cannot tell the array from the contiguous one
  have hr' : PhaseGpu false false lm' uvw frequency r := hr
  obtain ⟨out, ref, h1, h2, h3⟩ := C118_phase_partial false false lm' uvw frequency 2 1 1 rfl rfl rfl (contiguous_dense _ _)
    (contiguous_dense _ _) (by simp [Fits, phaseBlock]) r hr'
  obtain rfl := Except.ok.inj h2
  refine ⟨out, _, h1, rfl, ?_, ?_⟩
  · rw [h3 1 (by omega) 0 (by omega) 0 (by omega)]
    have hv : -twoPiOverC * (1 / 2) * lightspeed = -Real.pi := by
      unfold twoPiOverC lightspeed
      ring
    show phaseCell (-twoPiOverC) (lm'.at [1, 0]) (lm'.at [1, 1]) (uvw.at [0, 0]) (uvw.at [0, 1]) (uvw.at [0, 2])
      (frequency.at [0]) = -1
    have a1 : lm'.at [1, 0] = 1 / 2 := by
      show (if (0 : Int) + offset (cStrides [2, 2]) [1, 0] = 2 then (1 / 2 : ℝ) else 0) = _
      rw [if_pos (by decide)]
    have a2 : lm'.at [1, 1] = 0 := by
      show (if (0 : Int) + offset (cStrides [2, 2]) [1, 1] = 2 then (1 / 2 : ℝ) else 0) = _
      rw [if_neg (by decide)]
    have a3 : uvw.at [0, 0] = 1 := by
      show (if (0 : Int) + offset (cStrides [1, 3]) [0, 0] = 0 then (1 : ℝ) else 0) = _
      rw [if_pos (by decide)]
    have a4 : uvw.at [0, 1] = 0 := by
      show (if (0 : Int) + offset (cStrides [1, 3]) [0, 1] = 0 then (1 : ℝ) else 0) = _
      rw [if_neg (by decide)]
    have a5 : uvw.at [0, 2] = 0 := by
      show (if (0 : Int) + offset (cStrides [1, 3]) [0, 2] = 0 then (1 : ℝ) else 0) = _
      rw [if_neg (by decide)]
    have a6 : frequency.at [0] = lightspeed := rfl
    rw [a1, a2, a3, a4, a5, a6]
    unfold phaseCell
    simp only [mul_zero, add_zero, mul_one, hv, Real.cos_neg, Real.cos_pi, Real.sin_neg, Real.sin_pi, neg_zero]
    apply Complex.ext <;> simp
  · show phaseCell (-twoPiOverC) (lm.at [1, 0]) (lm.at [1, 1]) (uvw.at [0, 0]) (uvw.at [0, 1]) (uvw.at [0, 2])
      (frequency.at [0]) = 1
    have a1 : lm.at [1, 0] = 0 := by
      show (if (0 : Int) + offset [3, 1] [1, 0] = 2 then (1 / 2 : ℝ) else 0) = _
      rw [if_neg (by decide)]
    have a2 : lm.at [1, 1] = 0 := by
      show (if (0 : Int) + offset [3, 1] [1, 1] = 2 then (1 / 2 : ℝ) else 0) = _
      rw [if_neg (by decide)]
    rw [a1, a2]
    unfold phaseCell
    apply Complex.ext <;> simp

/-- The jax version computes the same for every input. -/
theorem C118_jax (lm : Nat → ℝ × ℝ) (uvw : Nat → ℝ × ℝ × ℝ) (frequency : Nat → ℝ) :
    phaseDelay lm uvw frequency "fourier" = .ok (jaxPhaseDelay lm uvw frequency) := by
  show Except.ok _ = _
  congr 1
  funext s r f
  have key : ∀ p : ℝ, (⟨Real.cos p, Real.sin p⟩ : ℂ) = Complex.exp (Complex.I * p) := by
    intro p
    rw [mul_comm Complex.I, Complex.exp_mul_I]
    apply Complex.ext <;> simp [Complex.cos_ofReal_re, Complex.sin_ofReal_re]
  exact key _

/-- Not vacuous: a source off the centre has a phase other than one. -/
example : jaxPhaseDelay (fun _ => (1 / 2, 0)) (fun _ => (1, 0, 0)) (fun _ => lightspeed) 0 0 0 = -1 := by
  have hv : -twoPiOverC * (1 / 2) * lightspeed = -Real.pi := by
    unfold twoPiOverC lightspeed
    ring
  unfold jaxPhaseDelay
  simp only [mul_zero, add_zero, mul_one, hv]
  rw [mul_comm Complex.I]
  push_cast
  rw [neg_mul, Complex.exp_neg, Complex.exp_pi_mul_I]
  norm_num

/-! ### feed_rotation -/

/-- The threads of a block. -/
def feedThreads (dtype : String) : Nat := if dtype = "float32" then 1024 else 512

/-- `feed_rotation` on the device, for angles of any number of axes and any strides. -/
theorem C118_feed (dtype feedType : String) (hd : dtype = "float32" ∨ dtype = "float64")
    (ht : feedType = "linear" ∨ feedType = "circular") (parangles : GArr ℝ)
    (hfit : Fits ⟨size parangles.shape, 1, 1⟩ ⟨feedThreads dtype, 1, 1⟩)
    (r : Except PyErr (Nat × Nat → ℂ)) (hr : FeedGpu dtype feedType parangles r) :
    ∃ out, r = .ok out ∧ ∀ idx, IsIdx parangles.shape idx →
      feedRotation (parangles.at idx) feedType =
        .ok (Matrix.of fun i j => feedElement parangles.shape out idx i j) := by
  unfold FeedGpu at hr
  rw [if_neg (by rintro ⟨h1, h2⟩; rcases hd with h | h <;> contradiction),
    if_neg (by rintro ⟨h1, h2⟩; rcases ht with h | h <;> contradiction)] at hr
  dsimp only at hr
  unfold feedThreads at hfit
  have hb : 0 < (if dtype = "float32" then 1024 else 512 : Nat) := by split <;> decide
  generalize (if dtype = "float32" then 1024 else 512 : Nat) = bx at *
  obtain ⟨circular, hc, hn⟩ : ∃ circular : Bool, (feedType == "circular") = circular ∧
      feedType = if circular then "circular" else "linear" := by
    rcases ht with rfl | rfl
    · exact ⟨false, rfl, rfl⟩
    · exact ⟨true, rfl, rfl⟩
  rw [hc] at hr
  subst hn
  obtain ⟨out, rfl, init, sh, out0, ws, hsh, hws, rfl⟩ := launch_ok (block := ⟨bx, 1, 1⟩) hb Nat.one_pos Nat.one_pos hfit hr
  refine ⟨_, rfl, ?_⟩
  intro idx hidx
  have hlt := ravel_lt hidx
  have hflat : parangles.flat (ravel parangles.shape idx) = parangles.at idx := flat_ravel _ hidx
  have hcell : ∀ v, ∀ c < 4, (feedValue circular (parangles.at idx)).getD c 0 = v →
      writeAll out0 ws (ravel parangles.shape idx, c) = v := by
    intro v c hc hv
    have hlen : (feedValue circular (parangles.at idx)).length = 4 := by unfold feedValue; dsimp only; split <;> rfl
    refine out_eq hws _ _ ?_ ?_
    · intro b hb t ht e he hoc
      simp only [feedKernel] at he
      split at he
      · simp at he
      · obtain ⟨⟨w, k⟩, hw, rfl⟩ := List.mem_map.1 he
        simp only [Prod.mk.injEq] at hoc
        obtain ⟨h1, rfl⟩ := hoc
        rw [h1, hflat] at hw
        rw [List.mk_mem_zipIdx_iff_getElem?] at hw
        rw [← hv, List.getD_eq_getElem?_getD, hw]
        rfl
    · set p := ravel parangles.shape idx
      have e1 : p / bx * bx + p % bx = p := Nat.div_add_mod' p bx
      refine ⟨⟨p / bx, 0, 0⟩, mem_all.2 ⟨div_lt_grid hb hlt, by simp [blocks], by simp [blocks]⟩,
        ⟨p % bx, 0, 0⟩, mem_all.2 ⟨Nat.mod_lt _ hb, Nat.one_pos, Nat.one_pos⟩, ?_⟩
      simp only [feedKernel, e1, hflat]
      rw [if_neg (by omega)]
      refine ⟨_, List.mem_map.2 ⟨((feedValue circular (parangles.at idx))[c]'(by omega), c), ?_, rfl⟩⟩
      rw [List.mk_mem_zipIdx_iff_getElem?]
      exact List.getElem?_eq_getElem _
  cases circular
  · show nbFeedRotation _ 0 = _
    unfold nbFeedRotation
    rw [if_pos rfl]
    congr 1
    ext i j
    rw [Matrix.of_apply]
    unfold feedElement
    fin_cases i <;> fin_cases j
    · exact (hcell _ 0 (by omega) rfl).symm
    · exact (hcell _ 1 (by omega) rfl).symm
    · exact (hcell _ 2 (by omega) rfl).symm
    · exact (hcell _ 3 (by omega) rfl).symm
  · show nbFeedRotation _ 1 = _
    unfold nbFeedRotation
    rw [if_neg (by decide), if_pos rfl]
    congr 1
    ext i j
    rw [Matrix.of_apply]
    unfold feedElement
    fin_cases i <;> fin_cases j
    · exact (hcell _ 0 (by omega) rfl).symm
    · exact (hcell _ 1 (by omega) rfl).symm
    · exact (hcell _ 2 (by omega) rfl).symm
    · exact (hcell _ 3 (by omega) rfl).symm

/-- Not vacuous: 5 times and 300 antennas, transposed in memory, in double precision. -/
example : ∃ (parangles : GArr ℝ) (r : Except PyErr (Nat × Nat → ℂ)), parangles.shape = [5, 300] ∧
    parangles.strides = [1, 5] ∧ Fits ⟨size parangles.shape, 1, 1⟩ ⟨feedThreads "float64", 1, 1⟩ ∧
    FeedGpu "float64" "circular" parangles r := by
  obtain ⟨r, hr⟩ := feedGpu_exists "float64" "circular" ⟨[5, 300], [1, 5], 0, fun k => k⟩
  exact ⟨⟨[5, 300], [1, 5], 0, fun k => k⟩, r, rfl, rfl, by simp [Fits, size, feedThreads], hr⟩

/-- Another type of feed is refused on the device as well, by another exception than on the CPU. -/
theorem C118_feed_refused (dtype feedType : String) (ht : feedType ≠ "linear" ∧ feedType ≠ "circular") (parangles : GArr ℝ)
    (r : Except PyErr (Nat × Nat → ℂ)) (hr : FeedGpu dtype feedType parangles r) :
    (∃ e, r = .error e) ∧ ∀ pa, feedRotation pa feedType = .error .valueError := by
  constructor
  · unfold FeedGpu at hr
    rw [if_pos ht] at hr
    split at hr
    · exact ⟨_, hr⟩
    · exact ⟨_, hr⟩
  · intro pa
    unfold feedRotation
    rw [if_neg ht.1, if_neg ht.2]

end Verif.Cuda
