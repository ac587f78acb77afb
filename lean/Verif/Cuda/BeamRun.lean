/-
Executions of the main kernel of the CUDA version of `beam_cube_dde`.
-/
import Verif.Cuda.BeamLemmas

set_option autoImplicit false

namespace Verif.Cuda

attribute [local irreducible] Dim3.all

theorem corrShift_eq {ncorr shift : Nat} (h : corrShift ncorr = some shift) : shift ≤ 2 ∧ ncorr = 2 ^ shift := by
  unfold corrShift at h
  split at h
  · cases h; simp_all
  · split at h
    · cases h; simp_all
    · split at h
      · cases h; simp_all
      · simp at h

private theorem outside_eq {a : BeamArgs} {n time ant cc : Nat} :
    beamOutside a n time ant cc = false ↔
      time < a.pa.shape.getD 0 0 ∧ ant < a.pa.shape.getD 1 0 ∧ cc < a.freq.shape.getD 0 0 * n := by
  simp [beamOutside, and_assoc]

/-- What a thread writes before the barrier. -/
private theorem load_cases {block : Dim3} {ncorr shift : Nat} {a : BeamArgs} {fd : Nat → ℝ} {mid : Dim3 → BeamShared → ℝ}
    {b t : Dim3} {e : BeamShared × ℝ} (h : e ∈ ((beamKernel block ncorr shift a fd).rest mid).load b t) :
    e = (.lscale, ((a.beam.shape.getD 0 0 : ℝ) - 1) / (mid b (.lmExt 1) - mid b (.lmExt 0))) ∨
    e = (.mscale, ((a.beam.shape.getD 1 0 : ℝ) - 1) / (mid b (.lmExt 3) - mid b (.lmExt 2))) ∨
    (∃ c, e = (.pe t.z t.y (t.x >>> shift) c, a.pe.vecInt (wrap32 (2 * (((b.z * block.z + t.z) * a.pa.shape.getD 1 0 +
      (b.y * block.y + t.y)) * a.freq.shape.getD 0 0 + (b.x * block.x + t.x) >>> shift))) c)) ∨
    (∃ c, e = (.scaling t.y (t.x >>> shift) c, a.scaling.vecInt (wrap32 (2 * ((b.y * block.y + t.y) * a.freq.shape.getD 0 0 +
      (b.x * block.x + t.x) >>> shift))) c)) ∨
    e = (.paSin t.z t.y, Real.sin (a.pa.flatInt (wrap32 ((b.z * block.z + t.z) * a.pa.shape.getD 1 0 + (b.y * block.y + t.y))))) ∨
    e = (.paCos t.z t.y, Real.cos (a.pa.flatInt (wrap32 ((b.z * block.z + t.z) * a.pa.shape.getD 1 0 + (b.y * block.y + t.y))))) ∨
    (∃ k, e = (.freqData k (t.x >>> shift), fd (k * a.freq.shape.getD 0 0 + (b.x * block.x + t.x) >>> shift))) := by
  simp only [beamKernel] at h
  split at h
  · simp at h
  · simp only [List.mem_append] at h
    rcases h with (((h | h) | h) | h) | h
    · split at h
      · simp only [List.mem_cons, List.not_mem_nil, or_false] at h
        rcases h with rfl | rfl
        · exact Or.inl rfl
        · exact Or.inr (Or.inl rfl)
      · simp at h
    · split at h
      · simp only [List.mem_cons, List.not_mem_nil, or_false] at h
        rcases h with rfl | rfl
        · exact Or.inr (Or.inr (Or.inl ⟨0, rfl⟩))
        · exact Or.inr (Or.inr (Or.inl ⟨1, rfl⟩))
      · simp at h
    · split at h
      · simp only [List.mem_cons, List.not_mem_nil, or_false] at h
        rcases h with rfl | rfl
        · exact Or.inr (Or.inr (Or.inr (Or.inl ⟨0, rfl⟩)))
        · exact Or.inr (Or.inr (Or.inr (Or.inl ⟨1, rfl⟩)))
      · simp at h
    · split at h
      · simp only [List.mem_cons, List.not_mem_nil, or_false] at h
        rcases h with rfl | rfl
        · exact Or.inr (Or.inr (Or.inr (Or.inr (Or.inl rfl))))
        · exact Or.inr (Or.inr (Or.inr (Or.inr (Or.inr (Or.inl rfl)))))
      · simp at h
    · split at h
      · simp only [List.mem_cons, List.not_mem_nil, or_false] at h
        rcases h with rfl | rfl | rfl
        · exact Or.inr (Or.inr (Or.inr (Or.inr (Or.inr (Or.inr ⟨0, rfl⟩)))))
        · exact Or.inr (Or.inr (Or.inr (Or.inr (Or.inr (Or.inr ⟨1, rfl⟩)))))
        · exact Or.inr (Or.inr (Or.inr (Or.inr (Or.inr (Or.inr ⟨2, rfl⟩)))))
      · simp at h

/-- What an active thread with the first correlation writes. -/
private theorem load_mem {block : Dim3} {ncorr shift : Nat} {a : BeamArgs} {fd : Nat → ℝ} {mid : Dim3 → BeamShared → ℝ}
    {b t : Dim3} (ho : beamOutside a ncorr (b.z * block.z + t.z) (b.y * block.y + t.y) (b.x * block.x + t.x) = false)
    (hc : t.x &&& (ncorr - 1) = 0) :
    (∀ c < 2, (BeamShared.pe t.z t.y (t.x >>> shift) c, a.pe.vecInt (wrap32 (2 * (((b.z * block.z + t.z) * a.pa.shape.getD 1 0 +
      (b.y * block.y + t.y)) * a.freq.shape.getD 0 0 + (b.x * block.x + t.x) >>> shift))) c) ∈
        ((beamKernel block ncorr shift a fd).rest mid).load b t) ∧
    (t.z = 0 → ∀ c < 2, (BeamShared.scaling t.y (t.x >>> shift) c, a.scaling.vecInt (wrap32 (2 * ((b.y * block.y + t.y) *
      a.freq.shape.getD 0 0 + (b.x * block.x + t.x) >>> shift))) c) ∈
        ((beamKernel block ncorr shift a fd).rest mid).load b t) ∧
    (t.z = 0 → t.y = 0 → ∀ k < 3, (BeamShared.freqData k (t.x >>> shift), fd (k * a.freq.shape.getD 0 0 +
      (b.x * block.x + t.x) >>> shift)) ∈ ((beamKernel block ncorr shift a fd).rest mid).load b t) ∧
    (t.x = 0 → ∀ v ∈ [(BeamShared.paSin t.z t.y, Real.sin (a.pa.flatInt (wrap32 ((b.z * block.z + t.z) * a.pa.shape.getD 1 0 +
        (b.y * block.y + t.y))))), (BeamShared.paCos t.z t.y, Real.cos (a.pa.flatInt (wrap32 ((b.z * block.z + t.z) *
        a.pa.shape.getD 1 0 + (b.y * block.y + t.y)))))], v ∈ ((beamKernel block ncorr shift a fd).rest mid).load b t) ∧
    (t.x = 0 → t.y = 0 → t.z = 0 → ∀ v ∈
        [(BeamShared.lscale, ((a.beam.shape.getD 0 0 : ℝ) - 1) / (mid b (.lmExt 1) - mid b (.lmExt 0))),
         (BeamShared.mscale, ((a.beam.shape.getD 1 0 : ℝ) - 1) / (mid b (.lmExt 3) - mid b (.lmExt 2)))],
        v ∈ ((beamKernel block ncorr shift a fd).rest mid).load b t) := by
  simp only [beamKernel]
  rw [if_neg (by rw [ho]; simp)]
  simp only [List.mem_append]
  refine ⟨?_, ?_, ?_, ?_, ?_⟩
  · intro c hc2
    refine Or.inl (Or.inl (Or.inl (Or.inr ?_)))
    rw [if_pos hc]
    obtain rfl | rfl : c = 0 ∨ c = 1 := by omega
    · exact List.mem_cons_self
    · exact List.mem_cons_of_mem _ List.mem_cons_self
  · intro hz c hc2
    refine Or.inl (Or.inl (Or.inr ?_))
    rw [if_pos ⟨hz, hc⟩]
    obtain rfl | rfl : c = 0 ∨ c = 1 := by omega
    · exact List.mem_cons_self
    · exact List.mem_cons_of_mem _ List.mem_cons_self
  · intro hz hy k hk
    refine Or.inr ?_
    rw [if_pos ⟨hz, hy, hc⟩]
    obtain rfl | rfl | rfl : k = 0 ∨ k = 1 ∨ k = 2 := by omega
    · exact List.mem_cons_self
    · exact List.mem_cons_of_mem _ List.mem_cons_self
    · exact List.mem_cons_of_mem _ (List.mem_cons_of_mem _ List.mem_cons_self)
  · intro hx v hv
    refine Or.inl (Or.inr ?_)
    rw [if_pos hx]
    exact hv
  · intro hx hy hz v hv
    refine Or.inl (Or.inl (Or.inl (Or.inl ?_)))
    rw [if_pos ⟨hz, hy, hx⟩]
    exact hv

/-- The parts of an execution (rime/cuda/beam.py:144-203). -/
structure BeamRun (block : Dim3) (ncorr shift : Nat) (a : BeamArgs) (fd : Nat → ℝ) (init mid : Dim3 → BeamShared → ℝ)
    (out : Int → ℂ) : Prop where
  first : ∀ b ∈ (blocks ⟨a.freq.shape.getD 0 0 * ncorr, a.pa.shape.getD 1 0, a.pa.shape.getD 0 0⟩ block).all,
    ∃ w : List (BeamShared × ℝ), w.Perm (block.all.flatMap ((beamKernel block ncorr shift a fd).first b)) ∧
      mid b = writeAll (init b) w
  rest : ∃ (shared : Dim3 → BeamShared → ℝ) (out0 : Int → ℂ) (ws : List (Int × ℂ)),
    (∀ b ∈ (blocks ⟨a.freq.shape.getD 0 0 * ncorr, a.pa.shape.getD 1 0, a.pa.shape.getD 0 0⟩ block).all,
      ∃ w : List (BeamShared × ℝ), w.Perm (block.all.flatMap (((beamKernel block ncorr shift a fd).rest mid).load b)) ∧
        shared b = writeAll (mid b) w) ∧
    ws.Perm ((blocks ⟨a.freq.shape.getD 0 0 * ncorr, a.pa.shape.getD 1 0, a.pa.shape.getD 0 0⟩ block).all.flatMap fun b =>
      block.all.flatMap fun t => ((beamKernel block ncorr shift a fd).rest mid).body b t (shared b)) ∧
    out = writeAll out0 ws

theorem beamRun_of {block : Dim3} {ncorr shift : Nat} {a : BeamArgs} {fd : Nat → ℝ} {r : Except PyErr (Int → ℂ)}
    (hbx : 0 < block.x) (hby : 0 < block.y) (hbz : 0 < block.z)
    (hfit : Fits ⟨a.freq.shape.getD 0 0 * ncorr, a.pa.shape.getD 1 0, a.pa.shape.getD 0 0⟩ block)
    (h : LaunchOver2 (beamKernel block ncorr shift a fd)
      ⟨a.freq.shape.getD 0 0 * ncorr, a.pa.shape.getD 1 0, a.pa.shape.getD 0 0⟩ block r) :
    ∃ init mid out, r = .ok out ∧ BeamRun block ncorr shift a fd init mid out := by
  obtain ⟨out, rfl, init, mid, sh, out0, ws, h1, h2, h3, h4⟩ := (launch2_iff hbx hby hbz hfit).1 h
  exact ⟨init, mid, out, rfl, h1, sh, out0, ws, h2, h3, h4⟩

theorem beamRun_exists {block : Dim3} {ncorr shift : Nat} {a : BeamArgs} {fd : Nat → ℝ} (hbx : 0 < block.x) (hby : 0 < block.y)
    (hbz : 0 < block.z) (hfit : Fits ⟨a.freq.shape.getD 0 0 * ncorr, a.pa.shape.getD 1 0, a.pa.shape.getD 0 0⟩ block)
    (init : Dim3 → BeamShared → ℝ) :
    ∃ mid out, LaunchOver2 (beamKernel block ncorr shift a fd)
      ⟨a.freq.shape.getD 0 0 * ncorr, a.pa.shape.getD 1 0, a.pa.shape.getD 0 0⟩ block (.ok out) ∧
      BeamRun block ncorr shift a fd init mid out := by
  let k := beamKernel block ncorr shift a fd
  let mid : Dim3 → BeamShared → ℝ := fun b => writeAll (init b) (block.all.flatMap (k.first b))
  let sh : Dim3 → BeamShared → ℝ := fun b => writeAll (mid b) (block.all.flatMap ((k.rest mid).load b))
  refine ⟨mid, _, (launch2_iff hbx hby hbz hfit).2 ⟨_, rfl, init, mid, sh, fun _ => 0, _, fun b _ => ⟨_, List.Perm.refl _, rfl⟩,
    fun b _ => ⟨_, List.Perm.refl _, rfl⟩, List.Perm.refl _, rfl⟩, fun b _ => ⟨_, List.Perm.refl _, rfl⟩, sh, fun _ => 0, _,
    fun b _ => ⟨_, List.Perm.refl _, rfl⟩, List.Perm.refl _, rfl⟩

private theorem mem_first {block : Dim3} {ncorr shift : Nat} {a : BeamArgs} {fd : Nat → ℝ} {b t : Dim3} {e : BeamShared × ℝ} :
    e ∈ (beamKernel block ncorr shift a fd).first b t ↔
      beamOutside a ncorr (b.z * block.z + t.z) (b.y * block.y + t.y) (b.x * block.x + t.x) = false ∧ t.x < 4 ∧
        e = (.lmExt t.x, a.ext.flatInt t.x) := by
  simp only [beamKernel]
  split
  · rename_i h
    simp [h]
  · rename_i h
    split
    · rename_i h4
      simp [h, h4]
    · rename_i h4
      simp [h4]

private theorem start_lt {b n B : Nat} (hB : 0 < B) (h : b < (n + B - 1) / B) : b * B < n := by
  rw [Nat.lt_div_iff_mul_lt hB] at h
  have := Nat.mul_comm b B
  omega

/-- The extents in a block that has the threads to read them. -/
theorem BeamRun.loaded {block : Dim3} {ncorr shift : Nat} {a : BeamArgs} {fd : Nat → ℝ} {init mid : Dim3 → BeamShared → ℝ}
    {out : Int → ℂ} (h : BeamRun block ncorr shift a fd init mid out) (hbx : 4 ≤ block.x) (hby : 0 < block.y) (hbz : 0 < block.z)
    {b : Dim3} (hb : b ∈ (blocks ⟨a.freq.shape.getD 0 0 * ncorr, a.pa.shape.getD 1 0, a.pa.shape.getD 0 0⟩ block).all)
    {k : Nat} (hk : k < 4) (hlt : b.x * block.x + k < a.freq.shape.getD 0 0 * ncorr) :
    mid b (.lmExt k) = a.ext.flatInt k := by
  obtain ⟨w, hw, he⟩ := h.first b hb
  obtain ⟨h1, h2, h3⟩ := mem_all.1 hb
  refine memory_eq hw he _ _ ?_ ⟨⟨k, 0, 0⟩, mem_all.2 ⟨by dsimp only; omega, hby, hbz⟩, ?_⟩
  · intro t _ e he1 he2
    obtain ⟨_, _, rfl⟩ := mem_first.1 he1
    simp only [BeamShared.lmExt.injEq] at he2
    dsimp only
    rw [he2]
  · rw [mem_first, outside_eq]
    exact ⟨⟨start_lt hbz h3, start_lt hby h2, hlt⟩, hk, rfl⟩

/-- The extents in a block that does not. -/
theorem BeamRun.kept {block : Dim3} {ncorr shift : Nat} {a : BeamArgs} {fd : Nat → ℝ} {init mid : Dim3 → BeamShared → ℝ}
    {out : Int → ℂ} (h : BeamRun block ncorr shift a fd init mid out)
    {b : Dim3} (hb : b ∈ (blocks ⟨a.freq.shape.getD 0 0 * ncorr, a.pa.shape.getD 1 0, a.pa.shape.getD 0 0⟩ block).all)
    {k : Nat} (hlt : a.freq.shape.getD 0 0 * ncorr ≤ b.x * block.x + k) :
    mid b (.lmExt k) = init b (.lmExt k) := by
  obtain ⟨w, hw, he⟩ := h.first b hb
  refine memory_keep hw he _ ?_
  intro t _ e he1 he2
  obtain ⟨ho, _, rfl⟩ := mem_first.1 he1
  simp only [BeamShared.lmExt.injEq] at he2
  rw [outside_eq] at ho
  rw [he2] at ho
  omega

/-- Threads of a block with the same channel. -/
private theorem chan_eq {shift B b x : Nat} (hB : 2 ^ shift ∣ B) : (b * B + x) >>> shift = b * (B / 2 ^ shift) + x >>> shift := by
  obtain ⟨q, rfl⟩ := hB
  have hp : 0 < 2 ^ shift := Nat.two_pow_pos _
  rw [Nat.shiftRight_eq_div_pow, Nat.shiftRight_eq_div_pow, Nat.mul_div_cancel_left _ hp,
    show b * (2 ^ shift * q) + x = 2 ^ shift * (b * q) + x by ring, Nat.mul_add_div hp]

/-- What a thread writes to the output. -/
private theorem mem_body {block : Dim3} {ncorr shift : Nat} {a : BeamArgs} {fd : Nat → ℝ} {mid : Dim3 → BeamShared → ℝ}
    {b t : Dim3} {sh : BeamShared → ℝ} {e : Int × ℂ} :
    e ∈ ((beamKernel block ncorr shift a fd).rest mid).body b t sh ↔
      beamOutside a ncorr (b.z * block.z + t.z) (b.y * block.y + t.y) (b.x * block.x + t.x) = false ∧
      ∃ s < a.lm.shape.getD 0 0, e =
        (wrap32 (((s * a.pa.shape.getD 0 0 + (b.z * block.z + t.z)) * a.pa.shape.getD 1 0 + (b.y * block.y + t.y)) *
          (a.freq.shape.getD 0 0 * ncorr) + (b.x * block.x + t.x)),
          beamPoint (a.beam.shape.getD 0 0) (a.beam.shape.getD 1 0) (a.beam.shape.getD 2 0) ncorr (t.x &&& (ncorr - 1))
            (fun k => a.beam.mem (a.beam.base + k)) (sh .lscale) (sh (.lmExt 0)) (sh .mscale) (sh (.lmExt 2))
            (sh (.freqData 0 (t.x >>> shift))) (sh (.freqData 1 (t.x >>> shift))) (sh (.freqData 2 (t.x >>> shift)))
            (a.lm.vecInt (wrap32 (2 * s)) 0) (a.lm.vecInt (wrap32 (2 * s)) 1)
            (sh (.pe t.z t.y (t.x >>> shift) 0)) (sh (.pe t.z t.y (t.x >>> shift) 1))
            (sh (.paSin t.z t.y)) (sh (.paCos t.z t.y))
            (sh (.scaling t.y (t.x >>> shift) 0)) (sh (.scaling t.y (t.x >>> shift) 1))) := by
  simp only [beamKernel]
  split
  · rename_i h
    simp [h]
  · rename_i h
    simp only [List.mem_map, List.mem_range, Bool.not_eq_true] at h ⊢
    constructor
    · rintro ⟨s, hs, rfl⟩
      exact ⟨h, s, hs, rfl⟩
    · rintro ⟨_, s, hs, rfl⟩
      exact ⟨s, hs, rfl⟩

/-- The contents of shared memory that an active thread reads. -/
theorem BeamRun.value {block : Dim3} {ncorr shift : Nat} {a : BeamArgs} {fd : Nat → ℝ} {init mid : Dim3 → BeamShared → ℝ}
    {out : Int → ℂ} (h : BeamRun block ncorr shift a fd init mid out) (hbx : 0 < block.x) (hby : 0 < block.y) (hbz : 0 < block.z)
    (hn : ncorr = 2 ^ shift) (hB : ncorr ∣ block.x) {nsrc ntime na nchan : Nat} (hsrc : a.lm.shape.getD 0 0 = nsrc)
    (htime : a.pa.shape.getD 0 0 = ntime) (hna : a.pa.shape.getD 1 0 = na) (hchan : a.freq.shape.getD 0 0 = nchan)
    (hsmall : nsrc * (ntime * (na * (nchan * ncorr))) ≤ 2 ^ 31)
    {s t p f c : Nat} (hs : s < nsrc) (ht : t < ntime) (hp : p < na) (hf : f < nchan) (hc : c < ncorr) :
    ∃ b ∈ (blocks ⟨nchan * ncorr, na, ntime⟩ block).all, b.x = (f * ncorr + c) / block.x ∧
      out (ravel [nsrc, ntime, na, nchan * ncorr] [s, t, p, f * ncorr + c]) =
        beamPoint (a.beam.shape.getD 0 0) (a.beam.shape.getD 1 0) (a.beam.shape.getD 2 0) ncorr c
          (fun k => a.beam.mem (a.beam.base + k))
          (((a.beam.shape.getD 0 0 : ℝ) - 1) / (mid b (.lmExt 1) - mid b (.lmExt 0))) (mid b (.lmExt 0))
          (((a.beam.shape.getD 1 0 : ℝ) - 1) / (mid b (.lmExt 3) - mid b (.lmExt 2))) (mid b (.lmExt 2))
          (fd f) (fd (nchan + f)) (fd (2 * nchan + f))
          (a.lm.vecInt (wrap32 (2 * s)) 0) (a.lm.vecInt (wrap32 (2 * s)) 1)
          (a.pe.vecInt (wrap32 (2 * ((t * na + p) * nchan + f))) 0) (a.pe.vecInt (wrap32 (2 * ((t * na + p) * nchan + f))) 1)
          (Real.sin (a.pa.flatInt (wrap32 (t * na + p)))) (Real.cos (a.pa.flatInt (wrap32 (t * na + p))))
          (a.scaling.vecInt (wrap32 (2 * (p * nchan + f))) 0) (a.scaling.vecInt (wrap32 (2 * (p * nchan + f))) 1) := by
  subst hsrc htime hna hchan
  generalize hnsrc : a.lm.shape.getD 0 0 = nsrc at *
  generalize hntime : a.pa.shape.getD 0 0 = ntime at *
  generalize hna : a.pa.shape.getD 1 0 = na at *
  generalize hnchan : a.freq.shape.getD 0 0 = nchan at *
  have hcc : f * ncorr + c < nchan * ncorr := by
    have := Nat.mul_le_mul_right ncorr hf
    rw [Nat.succ_mul] at this
    omega
  obtain ⟨sh, out0, ws, hsh, hws, rfl⟩ := h.rest
  rw [hntime, hna, hnchan] at hsh hws
  have hmemb : ∀ b ∈ (blocks ⟨nchan * ncorr, na, ntime⟩ block).all, ∀ th ∈ block.all,
      beamOutside a ncorr (b.z * block.z + th.z) (b.y * block.y + th.y) (b.x * block.x + th.x) = false →
      sh b .lscale = ((a.beam.shape.getD 0 0 : ℝ) - 1) / (mid b (.lmExt 1) - mid b (.lmExt 0)) ∧
      sh b .mscale = ((a.beam.shape.getD 1 0 : ℝ) - 1) / (mid b (.lmExt 3) - mid b (.lmExt 2)) ∧
      (∀ k, sh b (.lmExt k) = mid b (.lmExt k)) ∧
      (∀ k < 3, sh b (.freqData k (th.x >>> shift)) = fd (k * nchan + (b.x * block.x + th.x) >>> shift)) ∧
      (∀ k < 2, sh b (.pe th.z th.y (th.x >>> shift) k) = a.pe.vecInt (wrap32 (2 * (((b.z * block.z + th.z) * na +
        (b.y * block.y + th.y)) * nchan + (b.x * block.x + th.x) >>> shift))) k) ∧
      sh b (.paSin th.z th.y) = Real.sin (a.pa.flatInt (wrap32 ((b.z * block.z + th.z) * na + (b.y * block.y + th.y)))) ∧
      sh b (.paCos th.z th.y) = Real.cos (a.pa.flatInt (wrap32 ((b.z * block.z + th.z) * na + (b.y * block.y + th.y)))) ∧
      (∀ k < 2, sh b (.scaling th.y (th.x >>> shift) k) = a.scaling.vecInt (wrap32 (2 * ((b.y * block.y + th.y) * nchan +
        (b.x * block.x + th.x) >>> shift))) k) := by
    intro b hb th hth ho
    obtain ⟨w, hw, he⟩ := hsh b hb
    obtain ⟨hx, hy, hz⟩ := mem_all.1 hth
    rw [outside_eq, hntime, hna, hnchan] at ho
    obtain ⟨o1, o2, o3⟩ := ho
    have hbq : ∀ x, (b.x * block.x + x) >>> shift = b.x * (block.x / 2 ^ shift) + x >>> shift :=
      fun x => chan_eq (by rw [← hn]; exact hB)
    have hP : 0 < 2 ^ shift := Nat.two_pow_pos _
    -- the thread of the first correlation
    let x0 := th.x / 2 ^ shift * 2 ^ shift
    have hx0 : x0 ≤ th.x := Nat.div_mul_le_self _ _
    have hx0c : x0 &&& (ncorr - 1) = 0 := by
      rw [hn, Nat.and_two_pow_sub_one_eq_mod, Nat.mul_mod_left]
    have hx0s : x0 >>> shift = th.x >>> shift := by
      rw [Nat.shiftRight_eq_div_pow, Nat.shiftRight_eq_div_pow, Nat.mul_div_cancel _ hP]
    have hout : ∀ x ≤ th.x, ∀ y ≤ th.y, ∀ z ≤ th.z,
        beamOutside a ncorr (b.z * block.z + z) (b.y * block.y + y) (b.x * block.x + x) = false := by
      intro x hx y hy z hz
      rw [outside_eq, hntime, hna, hnchan]
      omega
    have hmem : ∀ x ≤ th.x, ∀ y ≤ th.y, ∀ z ≤ th.z, (⟨x, y, z⟩ : Dim3) ∈ block.all := by
      intro x hx y hy z hz
      refine mem_all.2 ⟨?_, ?_, ?_⟩ <;> dsimp only <;> omega
    have L0 := load_mem (fd := fd) (mid := mid) (shift := shift) (t := ⟨0, 0, 0⟩) (hout 0 (by omega) 0 (by omega) 0 (by omega))
      (by simp)
    have Lx := load_mem (fd := fd) (mid := mid) (shift := shift) (t := ⟨x0, 0, 0⟩) (hout x0 hx0 0 (by omega) 0 (by omega)) hx0c
    have Ly := load_mem (fd := fd) (mid := mid) (shift := shift) (t := ⟨x0, th.y, 0⟩) (hout x0 hx0 _ le_rfl 0 (by omega)) hx0c
    have Lz := load_mem (fd := fd) (mid := mid) (shift := shift) (t := ⟨x0, th.y, th.z⟩) (hout x0 hx0 _ le_rfl _ le_rfl) hx0c
    have L1 := load_mem (fd := fd) (mid := mid) (shift := shift) (t := ⟨0, th.y, th.z⟩)
      (hout 0 (by omega) _ le_rfl _ le_rfl) (by simp)
    have E : ∀ x, x >>> shift = th.x >>> shift → (b.x * block.x + x) >>> shift = (b.x * block.x + th.x) >>> shift := by
      intro x hx
      rw [hbq, hbq, hx]
    refine ⟨?_, ?_, ?_, ?_, ?_, ?_, ?_, ?_⟩
    · refine memory_eq hw he _ _ ?_ ⟨_, hmem 0 (by omega) 0 (by omega) 0 (by omega),
        L0.2.2.2.2 rfl rfl rfl _ List.mem_cons_self⟩
      intro t' _ e he1 he2
      rcases load_cases he1 with rfl | rfl | ⟨c, rfl⟩ | ⟨c, rfl⟩ | rfl | rfl | ⟨c, rfl⟩ <;>
        first | rfl | simp only [reduceCtorEq] at he2
    · refine memory_eq hw he _ _ ?_ ⟨_, hmem 0 (by omega) 0 (by omega) 0 (by omega),
        L0.2.2.2.2 rfl rfl rfl _ (List.mem_cons_of_mem _ List.mem_cons_self)⟩
      intro t' _ e he1 he2
      rcases load_cases he1 with rfl | rfl | ⟨c, rfl⟩ | ⟨c, rfl⟩ | rfl | rfl | ⟨c, rfl⟩ <;>
        first | rfl | simp only [reduceCtorEq] at he2
    · intro k
      refine memory_keep hw he _ ?_
      intro t' _ e he1 he2
      rcases load_cases he1 with rfl | rfl | ⟨c, rfl⟩ | ⟨c, rfl⟩ | rfl | rfl | ⟨c, rfl⟩ <;>
        simp only [reduceCtorEq] at he2
    · intro k hk
      refine memory_eq hw he _ _ ?_ ⟨_, hmem x0 hx0 0 (by omega) 0 (by omega), ?_⟩
      · intro t' _ e he1 he2
        rcases load_cases he1 with rfl | rfl | ⟨c, rfl⟩ | ⟨c, rfl⟩ | rfl | rfl | ⟨c, rfl⟩ <;>
          simp only [reduceCtorEq, BeamShared.freqData.injEq] at he2
        obtain ⟨rfl, h2⟩ := he2
        dsimp only
        rw [hnchan, E _ h2]
      · have := Lx.2.2.1 rfl rfl k hk
        dsimp only at this
        rw [hx0s, hnchan, E _ hx0s] at this
        exact this
    · intro k hk
      refine memory_eq hw he _ _ ?_ ⟨_, hmem x0 hx0 _ le_rfl _ le_rfl, ?_⟩
      · intro t' _ e he1 he2
        rcases load_cases he1 with rfl | rfl | ⟨c, rfl⟩ | ⟨c, rfl⟩ | rfl | rfl | ⟨c, rfl⟩ <;>
          simp only [reduceCtorEq, BeamShared.pe.injEq] at he2
        obtain ⟨h0, h1, h2, rfl⟩ := he2
        dsimp only
        rw [hnchan, hna, E _ h2, h0, h1]
      · have := Lz.1 k hk
        dsimp only at this
        rw [hx0s, hnchan, hna, E _ hx0s] at this
        exact this
    · refine memory_eq hw he _ _ ?_ ⟨_, hmem 0 (by omega) _ le_rfl _ le_rfl, ?_⟩
      · intro t' _ e he1 he2
        rcases load_cases he1 with rfl | rfl | ⟨c, rfl⟩ | ⟨c, rfl⟩ | rfl | rfl | ⟨c, rfl⟩ <;>
          simp only [reduceCtorEq, BeamShared.paSin.injEq] at he2
        obtain ⟨h0, h1⟩ := he2
        dsimp only
        rw [hna, h0, h1]
      · have := L1.2.2.2.1 rfl _ List.mem_cons_self
        dsimp only at this
        rw [hna] at this
        exact this
    · refine memory_eq hw he _ _ ?_ ⟨_, hmem 0 (by omega) _ le_rfl _ le_rfl, ?_⟩
      · intro t' _ e he1 he2
        rcases load_cases he1 with rfl | rfl | ⟨c, rfl⟩ | ⟨c, rfl⟩ | rfl | rfl | ⟨c, rfl⟩ <;>
          simp only [reduceCtorEq, BeamShared.paCos.injEq] at he2
        obtain ⟨h0, h1⟩ := he2
        dsimp only
        rw [hna, h0, h1]
      · have := L1.2.2.2.1 rfl _ (List.mem_cons_of_mem _ List.mem_cons_self)
        dsimp only at this
        rw [hna] at this
        exact this
    · intro k hk
      refine memory_eq hw he _ _ ?_ ⟨_, hmem x0 hx0 _ le_rfl 0 (by omega), ?_⟩
      · intro t' _ e he1 he2
        rcases load_cases he1 with rfl | rfl | ⟨c, rfl⟩ | ⟨c, rfl⟩ | rfl | rfl | ⟨c, rfl⟩ <;>
          simp only [reduceCtorEq, BeamShared.scaling.injEq] at he2
        obtain ⟨h1, h2, rfl⟩ := he2
        dsimp only
        rw [hnchan, E _ h2, h1]
      · have := Ly.2.1 rfl k hk
        dsimp only at this
        rw [hx0s, hnchan, E _ hx0s] at this
        exact this
  -- places in the output
  have hravel : ∀ s t p q : Nat, ((s * ntime + t) * na + p) * (nchan * ncorr) + q = ravel [nsrc, ntime, na, nchan * ncorr] [s, t, p, q] := by
    intro s t p q
    simp only [ravel, size]
    ring
  have hsize : size [nsrc, ntime, na, nchan * ncorr] ≤ 2 ^ 31 := by
    simpa only [size, mul_one] using hsmall
  have hidx : ∀ s < nsrc, ∀ t < ntime, ∀ p < na, ∀ q < nchan * ncorr, IsIdx [nsrc, ntime, na, nchan * ncorr] [s, t, p, q] := by
    intro s hs t ht p hp q hq
    exact .cons hs (.cons ht (.cons hp (.cons hq .nil)))
  have hwrap : ∀ s < nsrc, ∀ t < ntime, ∀ p < na, ∀ q < nchan * ncorr,
      wrap32 (((s * ntime + t) * na + p) * (nchan * ncorr) + q) = (ravel [nsrc, ntime, na, nchan * ncorr] [s, t, p, q] : Nat) := by
    intro s hs t ht p hp q hq
    rw [hravel]
    exact wrap32_eq (lt_of_lt_of_le (ravel_lt (hidx s hs t ht p hp q hq)) hsize)
  -- the thread
  let q := f * ncorr + c
  let b0 : Dim3 := ⟨q / block.x, p / block.y, t / block.z⟩
  let t0 : Dim3 := ⟨q % block.x, p % block.y, t % block.z⟩
  have hb0 : b0 ∈ (blocks ⟨nchan * ncorr, na, ntime⟩ block).all :=
    mem_all.2 ⟨div_lt_grid hbx hcc, div_lt_grid hby hp, div_lt_grid hbz ht⟩
  have ht0 : t0 ∈ block.all := mem_all.2 ⟨Nat.mod_lt _ hbx, Nat.mod_lt _ hby, Nat.mod_lt _ hbz⟩
  have ex : b0.x * block.x + t0.x = q := Nat.div_add_mod' _ _
  have ey : b0.y * block.y + t0.y = p := Nat.div_add_mod' _ _
  have ez : b0.z * block.z + t0.z = t := Nat.div_add_mod' _ _
  have ho0 : beamOutside a ncorr (b0.z * block.z + t0.z) (b0.y * block.y + t0.y) (b0.x * block.x + t0.x) = false := by
    rw [ex, ey, ez, outside_eq, hntime, hna, hnchan]
    exact ⟨ht, hp, hcc⟩
  have hqc : q >>> shift = f := by
    rw [Nat.shiftRight_eq_div_pow, ← hn]
    show (f * ncorr + c) / ncorr = f
    rw [Nat.mul_comm, Nat.mul_add_div (by omega), Nat.div_eq_of_lt hc, Nat.add_zero]
  have htc : t0.x &&& (ncorr - 1) = c := by
    rw [hn, Nat.and_two_pow_sub_one_eq_mod, ← hn]
    show q % block.x % ncorr = c
    rw [Nat.mod_mod_of_dvd _ hB]
    show (f * ncorr + c) % ncorr = c
    rw [Nat.mul_comm, Nat.mul_add_mod, Nat.mod_eq_of_lt hc]
  refine ⟨b0, hb0, rfl, ?_⟩
  obtain ⟨s1, s2, s3, s4, s5, s6, s7, s8⟩ := hmemb b0 hb0 t0 ht0 ho0
  rw [ex, hqc] at s4
  rw [ex, ey, ez, hqc] at s5
  rw [ey, ez] at s6 s7
  rw [ex, ey, hqc] at s8
  have hm := (mem_body (sh := sh b0) (fd := fd) (mid := mid) (shift := shift)).2 ⟨ho0, s, by rw [hnsrc]; exact hs, rfl⟩
  rw [ex, ey, ez, hntime, hna, hnchan, hwrap s hs t ht p hp _ hcc] at hm
  refine out_eq hws _ _ ?_ ⟨b0, hb0, t0, ht0, _, hm⟩
  · intro b hb th hth e he1 he2
    obtain ⟨ho, s', hs', rfl⟩ := mem_body.1 he1
    have ho' := outside_eq.1 ho
    rw [hntime, hna, hnchan] at ho'
    rw [hnsrc] at hs'
    dsimp only at he2
    rw [hntime, hna, hnchan, hwrap s' hs' _ ho'.1 _ ho'.2.1 _ ho'.2.2] at he2
    have heq := congrArg (unravel [nsrc, ntime, na, nchan * ncorr]) (Int.ofNat.inj he2)
    rw [unravel_ravel (hidx s' hs' _ ho'.1 _ ho'.2.1 _ ho'.2.2), unravel_ravel (hidx s hs t ht p hp _ hcc)] at heq
    simp only [List.cons.injEq, and_true] at heq
    obtain ⟨rfl, h1, h2, h3⟩ := heq
    obtain ⟨hx, hy, hz⟩ := mem_all.1 hth
    have same : ∀ i x B k : Nat, x < B → i * B + x = k → i = k / B ∧ x = k % B := by
      intro i x B k hx hk
      have hB0 : 0 < B := by omega
      constructor
      · rw [← hk, Nat.mul_comm, Nat.mul_add_div hB0, Nat.div_eq_of_lt hx, Nat.add_zero]
      · rw [← hk, Nat.mul_comm, Nat.mul_add_mod, Nat.mod_eq_of_lt hx]
    have hbe : b = b0 := by
      obtain ⟨b1, b2, b3⟩ := b
      simp only [Dim3.mk.injEq, b0]
      exact ⟨(same _ _ _ _ hx h3).1, (same _ _ _ _ hy h2).1, (same _ _ _ _ hz h1).1⟩
    have hte : th = t0 := by
      obtain ⟨b1, b2, b3⟩ := th
      simp only [Dim3.mk.injEq, t0]
      exact ⟨(same _ _ _ _ hx h3).2, (same _ _ _ _ hy h2).2, (same _ _ _ _ hz h1).2⟩
    subst hbe hte
    dsimp only
    rw [s1, s2, s3 0, s3 2, s4 0 (by omega), s4 1 (by omega), s4 2 (by omega), s5 0 (by omega), s5 1 (by omega), s6, s7,
      s8 0 (by omega), s8 1 (by omega), htc]
    simp only [zero_mul, zero_add, one_mul]

end Verif.Cuda
