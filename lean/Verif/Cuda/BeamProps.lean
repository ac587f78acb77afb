/-
C120: the CUDA version of beam_cube_dde computes what the CPU version does.
-/
import Verif.Cuda.BeamRun
import Verif.Cuda.BeamSpec

set_option autoImplicit false

namespace Verif.Cuda

open Verif.Rime (bsearch freqData axisPos beamCoords beamCells beamValue beamRead beamCubeDde)

attribute [local irreducible] Dim3.all LaunchOver LaunchOver2 interpBlock

/-! ### reading arrays -/

private theorem offset_last (st : List Int) (i : List Nat) (h : st.length = i.length) (c : Nat) :
    offset (st ++ [1]) (i ++ [c]) = offset (st ++ [1]) (i ++ [0]) + c := by
  induction st generalizing i with
  | nil =>
    cases i with
    | nil => simp [offset]
    | cons => simp at h
  | cons s ss ih =>
    cases i with
    | nil => simp at h
    | cons i is =>
      simp only [List.cons_append, offset]
      rw [ih is (by simpa using h)]
      ring

/-- Pairs are read whole. -/
private theorem vecInt_at {a : GArr ℝ} (hp : Pairs a) {i : List Nat} {k : Nat} (hi : IsIdx a.shape (i ++ [0]))
    (hk : k = ravel a.shape (i ++ [0])) (c : Nat) : a.vecInt k c = a.at (i ++ [c]) := by
  obtain ⟨st, h1, h2⟩ := hp
  have hlen : st.length = i.length := by
    have := hi.length_eq
    simp at this
    omega
  have hne : a.shape ≠ [] := by
    intro h0
    rw [h0] at h2
    simp at h2
  have hbase : a.base + stepOffset a.shape a.strides k = a.base + offset a.strides (i ++ [0]) := by
    have := stepOffset_ravel (⟨a.shape, a.strides, a.base, fun k => k⟩ : GArr Int) (i := i ++ [0]) hi hne
    unfold GArr.flatInt GArr.at at this
    rw [hk]
    exact this
  unfold GArr.vecInt GArr.at
  rw [hbase, h1, offset_last st i hlen c]
  congr 1
  ring

private theorem flatInt_at' {a : GArr ℝ} {i : List Nat} {k : Nat} (hi : IsIdx a.shape i) (hne : a.shape ≠ [])
    (hk : k = ravel a.shape i) : a.flatInt k = a.at i := by
  rw [hk]
  exact stepOffset_ravel a hi hne

/-- The beam is read in order. -/
private theorem beam_mem {a : GArr ℂ} {lw mh nud : Nat} {corrs : List Nat} (hs : a.shape = [lw, mh, nud] ++ corrs)
    (hl : corrs.length = 1 ∨ corrs.length = 2) (hc : a.Contiguous) {i j k : Nat} (hi : i < lw) (hj : j < mh) (hk : k < nud)
    {c : List Nat} (hcc : IsIdx corrs c) :
    (flatBeam a).mem ((flatBeam a).base + (((i * mh + j) * nud + k) * size corrs + ravel corrs c : Nat)) =
      a.at ([i, j, k] ++ c) := by
  have hidx : IsIdx a.shape ([i, j, k] ++ c) := by
    rw [hs]
    exact .cons hi (.cons hj (.cons hk hcc))
  have hrav : ((i * mh + j) * nud + k) * size corrs + ravel corrs c = ravel a.shape ([i, j, k] ++ c) := by
    rw [hs]
    simp only [List.cons_append, List.nil_append, ravel, size]
    ring
  unfold flatBeam
  dsimp only
  rw [hs]
  rcases hl with hl | hl
  · rw [if_neg (by simp [hl]), hrav]
    exact ptr_ravel a hc hidx
  · rw [if_pos (by simp [hl])]
    unfold GArr.reshape GArr.dense
    dsimp only
    rw [zero_add, Int.toNat_natCast, hrav]
    exact flat_ravel a hidx

private theorem flatBeam_shape {a : GArr ℂ} {lw mh nud : Nat} {corrs : List Nat} (hs : a.shape = [lw, mh, nud] ++ corrs)  :
    (flatBeam a).shape.getD 0 0 = lw ∧ (flatBeam a).shape.getD 1 0 = mh ∧ (flatBeam a).shape.getD 2 0 = nud := by
  unfold flatBeam
  dsimp only
  split
  · simp [GArr.reshape, GArr.dense, hs]
  · simp [hs]

private theorem dense_at {sh : List Nat} {mem : Int → ℂ} {i : List Nat} (h : IsIdx sh i) :
    (GArr.dense sh mem).at i = mem (ravel sh i) := by
  have := contiguous_dense sh mem i h
  unfold GArr.at
  rw [this]
  simp [GArr.dense]

theorem beamBlock_eq {dtype : BeamType} {block : Dim3} (h : beamBlock dtype = .ok block) :
    block.x = 32 ∧ 16 ≤ block.y ∧ block.z = 1 := by
  cases dtype <;> cases h <;> simp

/-! ### executions -/

/-- The result of an execution, whatever the contents of shared memory were: the extents are those that the block holds, the
row of the first kernel is that of the frequencies it holds. -/
theorem run_value {block : Dim3} {shift : Nat} {a : BeamArgs} {lw mh nud nsrc ntime na nchan : Nat} {corrs : List Nat}
    {fd : Nat → ℝ} {init mid : Dim3 → BeamShared → ℝ} {out : Int → ℂ} {finit : Dim3 → Nat → ℝ}
    (hs : BeamShapes a lw mh nud nsrc ntime na nchan corrs) (hmem : BeamMemory a)
    (hsmall : BeamSmall lw mh nud nsrc ntime na nchan (size corrs)) (hlw : 2 ≤ lw) (hmh : 2 ≤ mh) (hnud : 2 ≤ nud)
    (hbx : block.x = 32) (hby : 0 < block.y) (hbz : 0 < block.z) (hshift : corrShift (size corrs) = some shift)
    (hfd : InterpFrom a.freq a.freqMap finit fd)
    (hrun : BeamRun block (size corrs) shift { a with beam := flatBeam a.beam } fd init mid out)
    {s t p f : Nat} {c : List Nat} (hss : s < nsrc) (htt : t < ntime) (hpp : p < na) (hff : f < nchan) (hcc : IsIdx corrs c)
    (grid : Int → ℝ) (hgrid : ∀ k : Int, 0 ≤ k → k < nud → loadedFreqs a.freqMap finit f k = grid k) :
    ∃ b ∈ (blocks ⟨nchan * size corrs, na, ntime⟩ block).all, b.x = (f * size corrs + ravel corrs c) / 32 ∧
      (GArr.dense ([nsrc, ntime, na, nchan] ++ corrs) out).at ([s, t, p, f] ++ c) =
        beamValue (beamRead lw mh nud ((mid b (.lmExt 0), mid b (.lmExt 1)), (mid b (.lmExt 2), mid b (.lmExt 3))) grid
          (a.lm.at [s, 0]) (a.lm.at [s, 1]) (a.pa.at [t, p]) (a.pe.at [t, p, f, 0]) (a.pe.at [t, p, f, 1])
          (a.scaling.at [p, f, 0]) (a.scaling.at [p, f, 1]) (a.freq.at [f]))
          (fun i j k => a.beam.at ([i.toNat, j.toNat, k.toNat] ++ c)) := by
  obtain ⟨hsh2, hn⟩ := corrShift_eq hshift
  have hdvd : size corrs ∣ block.x := by
    rw [hn, hbx, show 32 = 2 ^ 5 by norm_num]
    exact pow_dvd_pow 2 (by omega)
  have hc : ravel corrs c < size corrs := ravel_lt hcc
  obtain ⟨b, hb, hbe, hv⟩ := hrun.value (by omega) hby hbz hn hdvd (nsrc := nsrc) (ntime := ntime) (na := na) (nchan := nchan)
    (by simp [hs.lm]) (by simp [hs.pa]) (by simp [hs.pa]) (by simp [hs.freq]) hsmall.out hss htt hpp hff hc
  refine ⟨b, hb, by rw [hbe, hbx], ?_⟩
  have hidx : IsIdx ([nsrc, ntime, na, nchan] ++ corrs) ([s, t, p, f] ++ c) :=
    .cons hss (.cons htt (.cons hpp (.cons hff hcc)))
  rw [dense_at hidx]
  have hrav : ravel ([nsrc, ntime, na, nchan] ++ corrs) ([s, t, p, f] ++ c) =
      ravel [nsrc, ntime, na, nchan * size corrs] [s, t, p, f * size corrs + ravel corrs c] := by
    simp only [List.cons_append, List.nil_append, ravel, size]
    ring
  rw [hrav, hv]
  -- the arrays
  have hpa : t * na + p < ntime * na := by
    have := Nat.mul_le_mul_right na htt
    rw [Nat.succ_mul] at this
    omega
  have hpef : (t * na + p) * nchan + f < ntime * na * nchan := by
    have := Nat.mul_le_mul_right nchan hpa
    rw [Nat.succ_mul] at this
    omega
  have hasf : p * nchan + f ≤ (t * na + p) * nchan + f := by
    have : p * nchan ≤ (t * na + p) * nchan := Nat.mul_le_mul_right _ (by omega)
    omega
  have hpal : t * na + p ≤ (t * na + p) * nchan + f := by
    have : (t * na + p) * 1 ≤ (t * na + p) * nchan := Nat.mul_le_mul_left _ (by omega)
    omega
  have hpe' := hsmall.pe
  have hlm' := hsmall.lm
  rw [wrap32_eq (k := 2 * s) (by omega), wrap32_eq (k := 2 * ((t * na + p) * nchan + f)) (by omega),
    wrap32_eq (k := t * na + p) (by omega), wrap32_eq (k := 2 * (p * nchan + f)) (by omega)]
  have L : ∀ c, a.lm.vecInt ((2 * s : Nat) : Int) c = a.lm.at [s, c] := fun c =>
    vecInt_at hmem.lm (i := [s]) (by rw [hs.lm]; exact .cons hss (.cons (by norm_num) .nil))
      (by rw [hs.lm]; simp [ravel, size]; ring) c
  have P : ∀ c, a.pe.vecInt ((2 * ((t * na + p) * nchan + f) : Nat) : Int) c = a.pe.at [t, p, f, c] := fun c =>
    vecInt_at hmem.pe (i := [t, p, f])
      (by rw [hs.pe]; exact .cons htt (.cons hpp (.cons hff (.cons (by norm_num) .nil))))
      (by rw [hs.pe]; simp [ravel, size]; ring) c
  have A : ∀ c, a.scaling.vecInt ((2 * (p * nchan + f) : Nat) : Int) c = a.scaling.at [p, f, c] := fun c =>
    vecInt_at hmem.scaling (i := [p, f]) (by rw [hs.scaling]; exact .cons hpp (.cons hff (.cons (by norm_num) .nil)))
      (by rw [hs.scaling]; simp [ravel, size]; ring) c
  have PA : a.pa.flatInt ((t * na + p : Nat) : Int) = a.pa.at [t, p] :=
    flatInt_at' (by rw [hs.pa]; exact .cons htt (.cons hpp .nil)) (by simp [hs.pa]) (by rw [hs.pa]; simp [ravel, size])
  have F : a.freq.flatInt (f : Int) = a.freq.at [f] :=
    flatInt_at' (by rw [hs.freq]; exact .cons hff .nil) (by simp [hs.freq]) (by rw [hs.freq]; simp [ravel, size])
  dsimp only
  rw [L, L, P, P, A, A, PA]
  -- the frequency
  have hnu : a.freqMap.shape.getD 0 0 = nud := by simp [hs.freqMap]
  have hnc : a.freq.shape.getD 0 0 = nchan := by simp [hs.freq]
  obtain ⟨g0, g1, hrow⟩ := interpRow_eq (loadedFreqs a.freqMap finit f) grid nud hnud (a.freq.at [f]) hgrid
  have hfd' := hfd f (by rw [hnc]; exact hff) _ (by rw [hnu, F, hrow])
  rw [hnc] at hfd'
  rw [hfd'.1, hfd'.2.1, hfd'.2.2]
  dsimp only
  obtain ⟨e1, e2, e3⟩ := flatBeam_shape hs.beam
  rw [e1, e2, e3]
  unfold beamRead
  dsimp only
  refine beamPoint_eq hlw hmh hsmall.beam hc ?_ _ _ _ _ _ _ _ g0 g1 _ _ _ _ _ _ _
  intro i hi j hj k hk
  rw [beam_mem hs.beam hs.corrs hmem.beam hi hj hk hcc]
  simp

/-- Results, when the arguments are accepted. -/
theorem gpu_iff {generated : Bool} {dtype : BeamType} {a : BeamArgs} {lw mh nud nsrc ntime na nchan : Nat} {corrs : List Nat}
    {block : Dim3} {shift : Nat} (hs : BeamShapes a lw mh nud nsrc ntime na nchan corrs) (hlimit : nud < 128)
    (hsize : generated = true ∨ 2 ≤ lw ∧ 2 ≤ mh ∧ 2 ≤ nud) (hblock : beamBlock dtype = .ok block)
    (hshift : corrShift (size corrs) = some shift) (hfit : Fits ⟨nchan * size corrs, na, ntime⟩ block)
    (r : Except PyErr (GArr ℂ)) :
    BeamGpu generated dtype a r ↔
      ∃ fd out, LaunchOver (interpKernel interpBlock a.freq a.freqMap) ⟨a.freq.shape.getD 0 0, 1, 1⟩ interpBlock (.ok fd) ∧
        LaunchOver2 (beamKernel block (size corrs) shift { a with beam := flatBeam a.beam } fd)
          ⟨a.freq.shape.getD 0 0 * size corrs, a.pa.shape.getD 1 0, a.pa.shape.getD 0 0⟩ block (.ok out) ∧
        r = .ok (GArr.dense ([nsrc, ntime, na, nchan] ++ corrs) out) := by
  have h1 : a.beam.shape.getD 2 0 = nud := by simp [hs.beam]
  have h2 : a.beam.shape.drop 3 = corrs := by simp [hs.beam]
  have h3 : a.lm.shape.getD 0 0 = nsrc := by simp [hs.lm]
  have h4 : a.pa.shape.getD 0 0 = ntime := by simp [hs.pa]
  have h5 : a.pa.shape.getD 1 0 = na := by simp [hs.pa]
  have h6 : a.freq.shape.getD 0 0 = nchan := by simp [hs.freq]
  obtain ⟨e1, e2, e3⟩ := flatBeam_shape hs.beam
  obtain ⟨hbx, hby, hbz⟩ := beamBlock_eq hblock
  obtain ⟨hs2, hn⟩ := corrShift_eq hshift
  have hncorr : 0 < size corrs := by rw [hn]; exact Nat.two_pow_pos _
  have hgen : generateMain generated dtype lw mh nud (size corrs) = .ok (block, shift) := by
    unfold generateMain
    rw [if_neg (by rintro ⟨h7, h8⟩; rcases hsize with h | h <;> [simp_all; omega]), hblock]
    simp only [hshift]
    rfl
  have hfit' : Fits ⟨nchan, 1, 1⟩ interpBlock := by
    obtain ⟨⟨f1, f2⟩, _⟩ := hfit
    dsimp only at f1 f2
    rw [hbx] at f2
    have hle : nchan * 1 ≤ nchan * size corrs := Nat.mul_le_mul_left _ hncorr
    refine ⟨⟨?_, ?_⟩, ⟨?_, ?_⟩, ?_, ?_⟩ <;> simp only [interpBlock]
    · exact Nat.pos_of_mul_pos_right f1
    · omega
    all_goals norm_num
  unfold BeamGpu
  dsimp only
  rw [h1, h2, h3, h4, h5, h6, e1, e2, e3, if_neg (by unfold beamNudLimit; omega), hgen]
  dsimp only
  constructor
  · rintro ⟨fd, hfd, hrest⟩
    have hfd0 := hfd
    rw [← h6] at hfd hfit'
    obtain ⟨fd', _, rfl, _⟩ := interp_runs hfit' hfd
    dsimp only at hrest
    obtain ⟨out, hout, rfl⟩ := hrest
    obtain ⟨o, rfl, _⟩ := (launch2_iff (by omega) (by omega) (by omega) hfit).1 hout
    exact ⟨fd', o, hfd0, hout, rfl⟩
  · rintro ⟨fd, out, hfd, hout, rfl⟩
    exact ⟨_, hfd, _, hout, rfl⟩

/-! ### C120 -/

/-- **C120** (what holds) For a beam of 2 to 127 frequencies, at channels below 1024, and correlations in a block of 32 columns
of which at least four exist: whatever shared memory held, in whatever order threads ran and whether or not a kernel for these
types had been generated, the result is that of the CPU version. Missing: other channels and correlations, for which it is false,
and arrays in which the elements read together are not next to each other. -/
theorem C120_partial (generated : Bool) (dtype : BeamType) (block : Dim3) (hblock : beamBlock dtype = .ok block) (a : BeamArgs)
    (lw mh nud nsrc ntime na nchan : Nat) (corrs : List Nat) (hs : BeamShapes a lw mh nud nsrc ntime na nchan corrs)
    (hmem : BeamMemory a) (hsmall : BeamSmall lw mh nud nsrc ntime na nchan (size corrs)) (hlw : 2 ≤ lw) (hmh : 2 ≤ mh)
    (hnud : 2 ≤ nud) (hlimit : nud < 128) (hcorr : size corrs = 1 ∨ size corrs = 2 ∨ size corrs = 4)
    (hfit : Fits ⟨nchan * size corrs, na, ntime⟩ block) (r : Except PyErr (GArr ℂ)) (hr : BeamGpu generated dtype a r) :
    ∃ out, r = .ok out ∧ out.shape = [nsrc, ntime, na, nchan] ++ corrs ∧
      ∀ s < nsrc, ∀ t < ntime, ∀ p < na, ∀ f < nchan, ∀ c, IsIdx corrs c → f < 1024 →
        (f * size corrs + ravel corrs c) / 32 * 32 + 4 ≤ nchan * size corrs →
        .ok (out.at ([s, t, p, f] ++ c)) = cpuBeam a lw mh nud s t p f c := by
  obtain ⟨shift, hshift⟩ : ∃ shift, corrShift (size corrs) = some shift := by
    rcases hcorr with h | h | h <;> rw [h] <;> exact ⟨_, rfl⟩
  obtain ⟨fd, out, hfd, hout, rfl⟩ := (gpu_iff hs hlimit (Or.inr ⟨hlw, hmh, hnud⟩) hblock hshift hfit r).1 hr
  refine ⟨_, rfl, rfl, ?_⟩
  intro s hss t htt p hpp f hff c hcc hf1024 hcols
  obtain ⟨hbx, hby, hbz⟩ := beamBlock_eq hblock
  have h4 : a.pa.shape.getD 0 0 = ntime := by simp [hs.pa]
  have h5 : a.pa.shape.getD 1 0 = na := by simp [hs.pa]
  have h6 : a.freq.shape.getD 0 0 = nchan := by simp [hs.freq]
  obtain ⟨fd', finit, hfe, hfrom⟩ := interp_runs (by
    have hncorr : 0 < size corrs := by omega
    have hle : nchan * 1 ≤ nchan * size corrs := Nat.mul_le_mul_left _ hncorr
    obtain ⟨⟨f1, f2⟩, _⟩ := hfit
    dsimp only at f1 f2
    rw [hbx] at f2
    rw [h6]
    refine ⟨⟨?_, ?_⟩, ⟨?_, ?_⟩, ?_, ?_⟩ <;> simp only [interpBlock]
    · omega
    · omega
    all_goals norm_num) hfd
  cases hfe
  obtain ⟨init, mid, o, hoe, hrun⟩ := beamRun_of (by omega) (by omega) (by omega)
    (a := { a with beam := flatBeam a.beam }) (by dsimp only; rw [h4, h5, h6]; exact hfit) hout
  cases hoe
  obtain ⟨b, hb, hbe, hv⟩ := run_value hs hmem hsmall hlw hmh hnud hbx (by omega) (by omega) hshift hfrom hrun hss htt hpp hff hcc
    (fun k => a.freqMap.at [k.toNat]) (by
      intro k hk0 hk1
      unfold loadedFreqs
      rw [if_pos ⟨hf1024, by omega⟩]
      exact flatInt_at' (by rw [hs.freqMap]; exact .cons (by omega) .nil) (by simp [hs.freqMap])
        (by rw [hs.freqMap]; simp [ravel, size]))
  rw [hv]
  have hext : ∀ k < 4, mid b (.lmExt k) = a.ext.flatInt k := by
    intro k hk
    refine hrun.loaded (by omega) (by omega) (by omega) (by dsimp only; rw [h4, h5, h6]; exact hb) hk ?_
    dsimp only
    rw [h6, hbx, hbe]
    omega
  have hE : ∀ i < 2, ∀ j < 2, a.ext.flatInt ((i * 2 + j : Nat) : Int) = a.ext.at [i, j] := by
    intro i hi j hj
    exact flatInt_at' (by rw [hs.ext]; exact .cons hi (.cons hj .nil)) (by simp [hs.ext])
      (by rw [hs.ext]; simp [ravel, size])
  have e0 := (hext 0 (by omega)).trans (hE 0 (by omega) 0 (by omega))
  have e1 := (hext 1 (by omega)).trans (hE 0 (by omega) 1 (by omega))
  have e2 := (hext 2 (by omega)).trans (hE 1 (by omega) 0 (by omega))
  have e3 := (hext 3 (by omega)).trans (hE 1 (by omega) 1 (by omega))
  rw [e0, e1, e2, e3]
  unfold cpuBeam beamCubeDde
  rw [if_neg (by omega)]

/-- **C120** (refusals) A beam of 128 frequencies or more, a beam that is not complex, a number of correlations other than 1, 2
and 4, extents for which no grid can be launched: an exception in every execution. So does a beam of fewer than two points along
an axis if no kernel for arrays of these types has been generated before. -/
theorem C120_refused (generated : Bool) (dtype : BeamType) (a : BeamArgs) (lw mh nud nsrc ntime na nchan : Nat)
    (corrs : List Nat) (hs : BeamShapes a lw mh nud nsrc ntime na nchan corrs) (r : Except PyErr (GArr ℂ))
    (hr : BeamGpu generated dtype a r) :
    (128 ≤ nud → r = .error .valueError) ∧
    (nud < 128 → generated = false → lw < 2 ∨ mh < 2 ∨ nud < 2 → r = .error .valueError) ∧
    (nud < 128 → 2 ≤ lw → 2 ≤ mh → 2 ≤ nud → dtype = .other → r = .error .typeError) ∧
    (nud < 128 → 2 ≤ lw → 2 ≤ mh → 2 ≤ nud → dtype ≠ .other → ¬ (size corrs = 1 ∨ size corrs = 2 ∨ size corrs = 4) →
      r = .error .valueError) ∧
    (nud < 128 → 2 ≤ lw → 2 ≤ mh → 2 ≤ nud → (size corrs = 1 ∨ size corrs = 2 ∨ size corrs = 4) →
      ∀ block, beamBlock dtype = .ok block → ¬ Fits ⟨nchan * size corrs, na, ntime⟩ block → r = .error .runtimeError) := by
  have h1 : a.beam.shape.getD 2 0 = nud := by simp [hs.beam]
  have h2 : a.beam.shape.drop 3 = corrs := by simp [hs.beam]
  have h3 : a.lm.shape.getD 0 0 = nsrc := by simp [hs.lm]
  have h4 : a.pa.shape.getD 0 0 = ntime := by simp [hs.pa]
  have h5 : a.pa.shape.getD 1 0 = na := by simp [hs.pa]
  have h6 : a.freq.shape.getD 0 0 = nchan := by simp [hs.freq]
  obtain ⟨e1, e2, e3⟩ := flatBeam_shape hs.beam
  unfold BeamGpu at hr
  dsimp only at hr
  rw [h1, h2, h3, h4, h5, h6, e1, e2, e3] at hr
  refine ⟨?_, ?_, ?_, ?_, ?_⟩
  · intro h
    rw [if_pos (by unfold beamNudLimit; omega)] at hr
    exact hr
  · intro h hg hsz
    rw [if_neg (by unfold beamNudLimit; omega)] at hr
    unfold generateMain at hr
    rw [if_pos ⟨hg, hsz⟩] at hr
    exact hr
  · intro h hlw hmh hnud hd
    rw [if_neg (by unfold beamNudLimit; omega)] at hr
    unfold generateMain at hr
    rw [if_neg (by rintro ⟨_, h⟩; omega), hd] at hr
    exact hr
  · intro h hlw hmh hnud hd hc
    rw [if_neg (by unfold beamNudLimit; omega)] at hr
    unfold generateMain at hr
    have hcs : corrShift (size corrs) = none := by
      unfold corrShift
      rw [if_neg (by tauto), if_neg (by tauto), if_neg (by tauto)]
    rw [if_neg (by rintro ⟨_, h⟩; omega), hcs] at hr
    cases dtype
    · exact hr
    · exact hr
    · exact absurd rfl hd
  · intro h hlw hmh hnud hc block hblock hfit
    obtain ⟨hbx, hby, hbz⟩ := beamBlock_eq hblock
    obtain ⟨shift, hshift⟩ : ∃ shift, corrShift (size corrs) = some shift := by
      rcases hc with h | h | h <;> rw [h] <;> exact ⟨_, rfl⟩
    have hgen : generateMain generated dtype lw mh nud (size corrs) = .ok (block, shift) := by
      unfold generateMain
      rw [if_neg (by rintro ⟨h7, h8⟩; omega), hblock]
      simp only [hshift]
      rfl
    rw [if_neg (by unfold beamNudLimit; omega), hgen] at hr
    dsimp only at hr
    obtain ⟨fd, hfd, hr⟩ := hr
    by_cases hfit' : Fits ⟨nchan, 1, 1⟩ interpBlock
    · rw [← h6] at hfd hfit'
      obtain ⟨fd', _, rfl, _⟩ := interp_runs hfit' hfd
      dsimp only at hr
      obtain ⟨out, hout, rfl⟩ := hr
      rw [launch2_error (by omega) (by omega) (by omega) hfit hout]
      rfl
    · have hp : 0 < interpBlock.x ∧ 0 < interpBlock.y ∧ 0 < interpBlock.z := by simp [interpBlock]
      rw [launch_error hp.1 hp.2.1 hp.2.2 hfit' hfd] at hr
      exact hr

end Verif.Cuda
