/-
C120: calls of the CUDA version of beam_cube_dde whose result is not that of the CPU version.
-/
import Verif.Cuda.BeamProps

set_option autoImplicit false

namespace Verif.Cuda

open Verif.Rime (bsearch freqData axisPos beamCoords beamCells beamValue beamRead beamCubeDde)

attribute [local irreducible] Dim3.all LaunchOver LaunchOver2 interpBlock

/-- One source at `(l, 0)`, one time, one antenna and `nchan` channels of frequency one; a beam of two by two points from -1 to 1
at the frequencies one and two, with one correlation. -/
noncomputable def demo (nchan : Nat) (beam : Int → ℂ) (l : ℝ) : BeamArgs where
  beam := .dense [2, 2, 2, 1] beam
  ext := .dense [2, 2] fun k => if k = 0 ∨ k = 2 then -1 else 1
  freqMap := .dense [2] fun k => k + 1
  lm := .dense [1, 2] fun k => if k = 0 then l else 0
  pa := .dense [1, 1] fun _ => 0
  pe := .dense [1, 1, nchan, 2] fun _ => 0
  scaling := .dense [1, nchan, 2] fun _ => 1
  freq := .dense [nchan] fun _ => 1

theorem demo_shapes (nchan : Nat) (beam : Int → ℂ) (l : ℝ) : BeamShapes (demo nchan beam l) 2 2 2 1 1 1 nchan [1] :=
  ⟨rfl, rfl, rfl, rfl, rfl, rfl, rfl, rfl, Or.inl rfl⟩

theorem demo_memory (nchan : Nat) (beam : Int → ℂ) (l : ℝ) : BeamMemory (demo nchan beam l) where
  beam := contiguous_dense _ _
  lm := ⟨[2], rfl, rfl⟩
  pe := ⟨[((nchan * 2 : Nat) : Int) * 1, ((nchan * 2 : Nat) : Int), 2], by simp [demo, GArr.dense, cStrides, size], rfl⟩
  scaling := ⟨[((nchan * 2 : Nat) : Int), 2], by simp [demo, GArr.dense, cStrides, size], rfl⟩

theorem demo_small {nchan : Nat} (h : nchan ≤ 2000) : BeamSmall 2 2 2 1 1 1 nchan (size [1]) :=
  ⟨by simp [size]; omega, by simp [size], by omega, by norm_num⟩

theorem demo_fits {nchan : Nat} (h0 : 0 < nchan) (h : nchan ≤ 2000) : Fits ⟨nchan * size [1], 1, 1⟩ ⟨32, 32, 1⟩ := by
  refine ⟨⟨?_, ?_⟩, ⟨?_, ?_⟩, ?_, ?_⟩ <;> simp [size] <;> omega

private theorem beamValue_real (cells : List ((Int × Int × Int) × ℝ)) (beam : Int → Int → Int → ℂ) (h : Int → Int → Int → ℝ)
    (hb : ∀ i j k, beam i j k = (h i j k : ℂ)) (hh : ∀ i j k, 0 ≤ h i j k) {r : ℝ}
    (hr : (cells.map fun e => e.2 * h e.1.1 e.1.2.1 e.1.2.2).sum = r) (hr0 : 0 < r) : beamValue cells beam = r := by
  have key : ∀ (cells : List ((Int × Int × Int) × ℝ)) (acc : ℝ × ℂ), cells.foldl (fun (acc : ℝ × ℂ) e =>
      (acc.1 + e.2 * ‖beam e.1.1 e.1.2.1 e.1.2.2‖, acc.2 + e.2 * beam e.1.1 e.1.2.1 e.1.2.2)) acc =
      (acc.1 + (cells.map fun e => e.2 * h e.1.1 e.1.2.1 e.1.2.2).sum,
        acc.2 + ((cells.map fun e => e.2 * h e.1.1 e.1.2.1 e.1.2.2).sum : ℝ)) := by
    intro cells
    induction cells with
    | nil => intro acc; simp
    | cons e es ih =>
      intro acc
      rw [List.foldl_cons, ih]
      simp only [List.map_cons, List.sum_cons, hb, Complex.norm_real, Real.norm_of_nonneg (hh _ _ _)]
      refine Prod.ext ?_ ?_
      · dsimp only; ring
      · dsimp only; push_cast; ring
  unfold beamValue
  rw [key, hr]
  simp only [zero_add]
  have hn : ‖(r : ℂ)‖ = r := by rw [Complex.norm_real, Real.norm_of_nonneg hr0.le]
  rw [hn, if_neg hr0.ne', div_self hr0.ne']
  simp

/-- The value that an execution gives, from what is in shared memory. -/
private theorem demo_value {nchan : Nat} (h0 : 0 < nchan) (hle : nchan ≤ 2000) (beam : Int → ℂ) (l : ℝ)
    (finit : Dim3 → Nat → ℝ) (init : Dim3 → BeamShared → ℝ) :
    ∃ out, BeamGpu false .complex64 (demo nchan beam l) (.ok out) ∧
      ∀ f < nchan, ∀ grid : Int → ℝ,
        (∀ k : Int, 0 ≤ k → k < 2 → loadedFreqs (demo nchan beam l).freqMap finit f k = grid k) →
        ∃ e : Nat → ℝ, (∀ k < 4, f / 32 * 32 + k < nchan → e k = (demo nchan beam l).ext.flatInt k) ∧
          (∀ k < 4, nchan ≤ f / 32 * 32 + k → e k = init ⟨f / 32, 0, 0⟩ (.lmExt k)) ∧
          out.at [0, 0, 0, f, 0] = beamValue (beamRead 2 2 2 ((e 0, e 1), (e 2, e 3)) grid l 0 0 0 0 1 1 1)
            (fun i j k => beam (4 * i.toNat + 2 * j.toNat + k.toNat)) := by
  have hs := demo_shapes nchan beam l
  have hfit := demo_fits h0 hle
  have hfit1 : Fits ⟨(demo nchan beam l).freq.shape.getD 0 0, 1, 1⟩ interpBlock := by
    refine ⟨⟨?_, ?_⟩, ⟨?_, ?_⟩, ?_, ?_⟩ <;> simp [interpBlock, demo, GArr.dense] <;> omega
  obtain ⟨fd, hfd, hfrom⟩ := interp_exists (freqMap := (demo nchan beam l).freqMap) hfit1 finit
  obtain ⟨mid, out, hout, hrun⟩ := beamRun_exists (block := ⟨32, 32, 1⟩) (ncorr := size [1]) (shift := 0)
    (a := { demo nchan beam l with beam := flatBeam (demo nchan beam l).beam }) (fd := fd) (by norm_num) (by norm_num)
    (by norm_num) hfit init
  refine ⟨_, (gpu_iff hs (by norm_num) (Or.inr ⟨le_rfl, le_rfl, le_rfl⟩) rfl (shift := 0) rfl hfit _).2
    ⟨fd, out, hfd, hout, rfl⟩, ?_⟩
  intro f hf grid hgrid
  obtain ⟨b, hb, hbe, hv⟩ := run_value hs (demo_memory nchan beam l) (demo_small hle) le_rfl le_rfl le_rfl rfl (by norm_num)
    (by norm_num) rfl hfrom hrun (s := 0) (t := 0) (p := 0) (f := f) (c := [0]) (by norm_num) (by norm_num) (by norm_num) hf
    (.cons (by norm_num) .nil) grid hgrid
  have hbe' : b.x = f / 32 := by rw [hbe]; simp [size, ravel]
  have hbb : b = ⟨f / 32, 0, 0⟩ := by
    obtain ⟨h1, h2, h3⟩ := mem_all.1 hb
    obtain ⟨bx, by', bz⟩ := b
    simp only [blocks, size] at h2 h3 hbe'
    simp only [Dim3.mk.injEq]
    exact ⟨hbe', by omega, by omega⟩
  refine ⟨fun k => mid b (.lmExt k), ?_, ?_, ?_⟩
  · intro k hk hlt
    refine hrun.loaded (by norm_num) (by norm_num) (by norm_num) hb hk ?_
    rw [hbe']
    show f / 32 * 32 + k < nchan * 1
    omega
  · intro k hk hlt
    rw [← hbb]
    refine hrun.kept hb ?_
    rw [hbe']
    show nchan * 1 ≤ f / 32 * 32 + k
    omega
  · refine hv.trans ?_
    have p1 : (demo nchan beam l).lm.at [0, 0] = l := by simp [demo, GArr.dense, GArr.at, offset, cStrides, size]
    have p2 : (demo nchan beam l).lm.at [0, 1] = 0 := by simp [demo, GArr.dense, GArr.at, offset, cStrides, size]
    have p3 : ∀ i j k, (demo nchan beam l).beam.at [i, j, k, 0] = beam (4 * i + 2 * j + k) := by
      intro i j k
      simp only [demo, GArr.dense, GArr.at, offset, cStrides, size]
      congr 1
      push_cast
      ring
    rw [p1, p2]
    simp only [List.cons_append, List.nil_append, p3]
    rfl

private theorem grid_true (k : Int) (nchan : Nat) (beam : Int → ℂ) (l : ℝ) (h0 : 0 ≤ k) :
    (demo nchan beam l).freqMap.at [k.toNat] = k + 1 := by
  simp only [demo, GArr.dense, GArr.at, offset, cStrides, size]
  have : ((k.toNat : Int) : ℝ) = k := by rw [Int.toNat_of_nonneg h0]
  push_cast at this ⊢
  simp [this]

private theorem search_true : freqData (fun k => (k : ℝ) + 1) 2 1 = (1, 1, 0) := by
  unfold freqData
  rw [bsearch]
  norm_num

private theorem search_zero : freqData (fun _ => (0 : ℝ)) 2 1 = (1 / 0, 0, 0) := by
  have h : bsearch (fun _ => (0 : ℝ)) 1 0 1 = (2, 1) := by
    rw [bsearch]
    norm_num
    rw [bsearch]
    norm_num
    rw [bsearch]
    norm_num
  unfold freqData
  have e : ((2 : Nat) : Int) - 1 = 1 := rfl
  rw [e, h]
  norm_num

/-- The result of the CPU version. -/
private theorem demo_cpu {nchan : Nat} (beam : Int → ℂ) (l : ℝ) (f : Nat) :
    cpuBeam (demo nchan beam l) 2 2 2 0 0 0 f [0] =
      .ok (beamValue (beamRead 2 2 2 ((-1, 1), (-1, 1)) (fun k => (demo nchan beam l).freqMap.at [k.toNat]) l 0 0 0 0 1 1 1)
        (fun i j k => beam (4 * i.toNat + 2 * j.toNat + k.toNat))) := by
  have p1 : (demo nchan beam l).lm.at [0, 0] = l := by simp [demo, GArr.dense, GArr.at, offset, cStrides, size]
  have p2 : (demo nchan beam l).lm.at [0, 1] = 0 := by simp [demo, GArr.dense, GArr.at, offset, cStrides, size]
  have p3 : ∀ i j k, (demo nchan beam l).beam.at [i, j, k, 0] = beam (4 * i + 2 * j + k) := by
    intro i j k
    simp only [demo, GArr.dense, GArr.at, offset, cStrides, size]
    congr 1
    push_cast
    ring
  have q1 : (demo nchan beam l).ext.at [0, 0] = -1 := by simp [demo, GArr.dense, GArr.at, offset, cStrides, size]
  have q2 : (demo nchan beam l).ext.at [0, 1] = 1 := by simp [demo, GArr.dense, GArr.at, offset, cStrides, size]
  have q3 : (demo nchan beam l).ext.at [1, 0] = -1 := by simp [demo, GArr.dense, GArr.at, offset, cStrides, size]
  have q4 : (demo nchan beam l).ext.at [1, 1] = 1 := by simp [demo, GArr.dense, GArr.at, offset, cStrides, size]
  unfold cpuBeam beamCubeDde
  rw [if_neg (by omega), p1, p2, q1, q2, q3, q4]
  simp only [List.cons_append, List.nil_append, p3]
  rfl

/-- The frequencies of the beam as the CPU version sees them. -/
private theorem row_true (nchan : Nat) (beam : Int → ℂ) (l : ℝ) :
    freqData (fun k => (demo nchan beam l).freqMap.at [k.toNat]) 2 1 = (1, 1, 0) := by
  have h := interpRow_eq (fun k => (k : ℝ) + 1) (fun k => (demo nchan beam l).freqMap.at [k.toNat]) 2 le_rfl 1
    (fun k h0 _ => (grid_true k nchan beam l h0).symm)
  have h' := interpRow_eq (fun k => (k : ℝ) + 1) (fun k => (k : ℝ) + 1) 2 le_rfl 1 (fun _ _ _ => rfl)
  rw [h'.2.2, search_true] at h
  have e := h.2.2
  simp only [Prod.mk.injEq] at e
  refine Prod.ext e.1.symm (Prod.ext e.2.1.symm ?_)
  have : ((freqData (fun k => (demo nchan beam l).freqMap.at [k.toNat]) 2 1).2.2 : ℝ) = ((0 : Int) : ℝ) := by
    rw [← e.2.2]
  exact_mod_cast this

/-! ### C120 -/

/-- The arguments of these calls are accepted, and so is `C120_partial` about the first channel of 1028. -/
example : (1 : Nat) < 1028 ∧ BeamShapes (demo 1028 (fun _ => 1) 0) 2 2 2 1 1 1 1028 [1] ∧
    BeamMemory (demo 1028 (fun _ => 1) 0) ∧ BeamSmall 2 2 2 1 1 1 1028 (size [1]) ∧ Fits ⟨1028 * size [1], 1, 1⟩ ⟨32, 32, 1⟩ ∧
    beamBlock .complex64 = .ok ⟨32, 32, 1⟩ ∧ IsIdx [1] [0] ∧ (1 * size [1] + ravel [1] [0]) / 32 * 32 + 4 ≤ 1028 * size [1] ∧
    ∃ r, BeamGpu false .complex64 (demo 1028 (fun _ => 1) 0) r := by
  refine ⟨by norm_num, demo_shapes _ _ _, demo_memory _ _ _, demo_small (by norm_num), demo_fits (by norm_num) (by norm_num),
    rfl, .cons (by norm_num) .nil, by simp [size, ravel], ?_⟩
  obtain ⟨out, h, _⟩ := demo_value (nchan := 1028) (by norm_num) (by norm_num) (fun _ => 1) 0 (fun _ _ => 0) (fun _ _ => 0)
  exact ⟨_, h⟩

/-- **C120** (violation) Channels from the 1024th on: the threads that process them do not load the frequencies of the beam. A
beam that is one at the frequency of all channels: there is an execution whose result is two. -/
theorem C120_channels_violated :
    ∃ (a : BeamArgs) (out : GArr ℂ), BeamShapes a 2 2 2 1 1 1 1028 [1] ∧ BeamMemory a ∧ BeamSmall 2 2 2 1 1 1 1028 (size [1]) ∧
      Fits ⟨1028 * size [1], 1, 1⟩ ⟨32, 32, 1⟩ ∧ BeamGpu false .complex64 a (.ok out) ∧
      (1024 * size [1] + ravel [1] [0]) / 32 * 32 + 4 ≤ 1028 * size [1] ∧
      cpuBeam a 2 2 2 0 0 0 1024 [0] = .ok 1 ∧ out.at [0, 0, 0, 1024, 0] = 2 := by
  let beam : Int → ℂ := fun k => if k % 2 = 0 then 1 else 2
  let h : Int → Int → Int → ℝ := fun _ _ k => if k.toNat % 2 = 0 then 1 else 2
  have hb : ∀ i j k : Int, beam (4 * i.toNat + 2 * j.toNat + k.toNat) = (h i j k : ℂ) := by
    intro i j k
    simp only [beam, h]
    by_cases hk : k.toNat % 2 = 0
    · rw [if_pos hk, if_pos (by omega)]
      simp
    · rw [if_neg hk, if_neg (by omega)]
      simp
  have hh : ∀ i j k, 0 ≤ h i j k := by
    intro i j k
    simp only [h]
    split <;> norm_num
  obtain ⟨out, hout, hval⟩ := demo_value (nchan := 1028) (by norm_num) (by norm_num) beam 0 (fun _ _ => 0) (fun _ _ => 0)
  refine ⟨demo 1028 beam 0, out, demo_shapes _ _ _, demo_memory _ _ _, demo_small (by norm_num),
    demo_fits (by norm_num) (by norm_num), hout, by simp [size, ravel], ?_, ?_⟩
  · rw [demo_cpu]
    congr 1
    have := beamValue_real (beamRead 2 2 2 ((-1, 1), (-1, 1)) (fun k => (demo 1028 beam 0).freqMap.at [k.toNat]) 0 0 0 0 0 1 1 1)
      _ h hb hh (r := 1) ?_ one_pos
    · rw [this]; simp
    · unfold beamRead
      rw [row_true]
      simp only [beamCells, List.map_cons, List.map_nil, List.sum_cons, List.sum_nil, h]
      norm_num
      ring
  · obtain ⟨e, he, _, hv⟩ := hval 1024 (by norm_num) (fun _ => 0) (by
      intro k _ _
      unfold loadedFreqs
      rw [if_neg (by omega)])
    rw [hv]
    have := beamValue_real (beamRead 2 2 2 ((e 0, e 1), (e 2, e 3)) (fun _ => 0) 0 0 0 0 0 1 1 1) _ h hb hh (r := 2) ?_ two_pos
    · rw [this]; simp
    · unfold beamRead
      rw [search_zero]
      simp only [beamCells, List.map_cons, List.map_nil, List.sum_cons, List.sum_nil, h]
      norm_num
      ring

/-- **C120** (violation) A last block of fewer than four columns: the extents of the beam are not all loaded. One channel, one
correlation and a source at the upper end of the beam, where it is two: there is an execution whose result is one and a half. -/
theorem C120_extents_violated :
    ∃ (a : BeamArgs) (out : GArr ℂ), BeamShapes a 2 2 2 1 1 1 1 [1] ∧ BeamMemory a ∧ BeamSmall 2 2 2 1 1 1 1 (size [1]) ∧
      Fits ⟨1 * size [1], 1, 1⟩ ⟨32, 32, 1⟩ ∧ BeamGpu false .complex64 a (.ok out) ∧
      cpuBeam a 2 2 2 0 0 0 0 [0] = .ok 2 ∧ out.at [0, 0, 0, 0, 0] = 3 / 2 := by
  let beam : Int → ℂ := fun k => if k < 4 then 1 else 2
  let h : Int → Int → Int → ℝ := fun i j k => if 4 * (i.toNat : Int) + 2 * j.toNat + k.toNat < 4 then 1 else 2
  have hb : ∀ i j k : Int, beam (4 * i.toNat + 2 * j.toNat + k.toNat) = (h i j k : ℂ) := by
    intro i j k
    simp only [beam, h]
    split <;> simp
  have hh : ∀ i j k, 0 ≤ h i j k := by
    intro i j k
    simp only [h]
    split <;> norm_num
  obtain ⟨out, hout, hval⟩ := demo_value (nchan := 1) (by norm_num) (by norm_num) beam 1 (fun _ _ => 0)
    (fun _ s => if s = .lmExt 1 then 3 else if s = .lmExt 2 then -1 else 1)
  have hc : beamCoords 1 0 1 0 0 0 1 1 = (1, 0) := by
    unfold beamCoords
    simp
  have hm : axisPos 2 (-1) 1 0 = (0, 1, 1 / 2) := by
    unfold axisPos
    norm_num
  refine ⟨demo 1 beam 1, out, demo_shapes _ _ _, demo_memory _ _ _, demo_small (by norm_num),
    demo_fits (by norm_num) (by norm_num), hout, ?_, ?_⟩
  · rw [demo_cpu]
    congr 1
    have := beamValue_real (beamRead 2 2 2 ((-1, 1), (-1, 1)) (fun k => (demo 1 beam 1).freqMap.at [k.toNat]) 1 0 0 0 0 1 1 1)
      _ h hb hh (r := 2) ?_ two_pos
    · rw [this]; simp
    · have hl : axisPos 2 (-1) 1 1 = (1, 1, 0) := by
        unfold axisPos
        norm_num
      unfold beamRead
      rw [row_true]
      dsimp only
      rw [hc]
      dsimp only
      rw [hl, hm]
      simp only [beamCells, List.map_cons, List.map_nil, List.sum_cons, List.sum_nil, h]
      norm_num
  · obtain ⟨e, he, he', hv⟩ := hval 0 (by norm_num) (fun k => (demo 1 beam 1).freqMap.at [k.toNat]) (by
      intro k h0 h1
      unfold loadedFreqs
      rw [if_pos ⟨by norm_num, by omega⟩]
      simp [demo, GArr.dense, GArr.at, GArr.flatInt, offset, cStrides, size, stepOffset])
    have e0 : e 0 = -1 := by
      rw [he 0 (by norm_num) (by norm_num)]
      simp [demo, GArr.dense, GArr.flatInt, cStrides, size, stepOffset]
    have e1 : e 1 = 3 := by
      rw [he' 1 (by norm_num) (by norm_num)]
      simp
    have e2 : e 2 = -1 := by
      rw [he' 2 (by norm_num) (by norm_num)]
      simp
    have e3 : e 3 = 1 := by
      rw [he' 3 (by norm_num) (by norm_num)]
      simp
    rw [hv, e0, e1, e2, e3]
    have := beamValue_real (beamRead 2 2 2 ((-1, 3), (-1, 1)) (fun k => (demo 1 beam 1).freqMap.at [k.toNat]) 1 0 0 0 0 1 1 1)
      _ h hb hh (r := 3 / 2) ?_ (by norm_num)
    · rw [this]; simp
    · have hl : axisPos 2 (-1) 3 1 = (0, 1, 1 / 2) := by
        unfold axisPos
        norm_num
      unfold beamRead
      rw [row_true]
      dsimp only
      rw [hc]
      dsimp only
      rw [hl, hm]
      simp only [beamCells, List.map_cons, List.map_nil, List.sum_cons, List.sum_nil, h]
      norm_num

/-- **C120** (violation) A beam of one point along an axis, which the CPU version refuses, is accepted once a kernel for arrays of
the same types has been generated. -/
theorem C120_size_violated (a : BeamArgs) (mh nud nsrc ntime na nchan : Nat) (corrs : List Nat)
    (hs : BeamShapes a 1 mh nud nsrc ntime na nchan corrs) (hlimit : nud < 128)
    (hcorr : size corrs = 1 ∨ size corrs = 2 ∨ size corrs = 4) (hfit : Fits ⟨nchan * size corrs, na, ntime⟩ ⟨32, 32, 1⟩)
    (r : Except PyErr (GArr ℂ)) (hr : BeamGpu true .complex64 a r) :
    (∃ out, r = .ok out) ∧ ∀ s t p f c, cpuBeam a 1 mh nud s t p f c = .error .valueError := by
  obtain ⟨shift, hshift⟩ : ∃ shift, corrShift (size corrs) = some shift := by
    rcases hcorr with h | h | h <;> rw [h] <;> exact ⟨_, rfl⟩
  obtain ⟨fd, out, _, _, rfl⟩ := (gpu_iff hs hlimit (Or.inl rfl) rfl hshift hfit r).1 hr
  refine ⟨⟨_, rfl⟩, ?_⟩
  intro s t p f c
  unfold cpuBeam beamCubeDde
  rw [if_pos (Or.inl (by norm_num))]

/-- Such a beam. -/
example : BeamShapes { demo 5 (fun _ => 1) 0 with beam := .dense [1, 2, 2, 1] fun _ => 1 } 1 2 2 1 1 1 5 [1] ∧
    Fits ⟨5 * size [1], 1, 1⟩ ⟨32, 32, 1⟩ :=
  ⟨⟨rfl, rfl, rfl, rfl, rfl, rfl, rfl, rfl, Or.inl rfl⟩, demo_fits (by norm_num) (by norm_num)⟩

end Verif.Cuda
