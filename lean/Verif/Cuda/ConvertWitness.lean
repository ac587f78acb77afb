/-
C121: a conversion that meets the hypotheses, and where it fails.
-/
import Verif.Cuda.ConvertProps

set_option autoImplicit false

namespace Verif.Cuda

open Verif.ModelData

/-- Stokes parameters. -/
def stokesSchema : List Schema := [.list [.str "I", .str "Q"], .list [.str "U", .str "V"]]

/-- Linear correlations. -/
def linearSchema : List Schema := [.str "XX", .str "XY", .str "YX", .str "YY"]

def stokesIndices : List (String × List Nat) := [("I", [0, 0]), ("Q", [0, 1]), ("U", [1, 0]), ("V", [1, 1])]
def linearIndices : List (String × List Nat) := [("XX", [0]), ("XY", [1]), ("YX", [2]), ("YY", [3])]

theorem stokes_indices : elementIndices (.list stokesSchema) = .ok (stokesIndices, [2, 2]) := rfl
theorem linear_indices : elementIndices (.list linearSchema) = .ok (linearIndices, [4]) := rfl

theorem stokes_has {s : String} {p : List Nat} : Has stokesSchema s p ↔ (s, p) ∈ stokesIndices :=
  ((C46_indices _ _ _ stokes_indices).1 s p).symm

theorem linear_has {s : String} {p : List Nat} : Has linearSchema s p ↔ (s, p) ∈ linearIndices :=
  ((C46_indices _ _ _ linear_indices).1 s p).symm

theorem demo_depth_in : SameDepth stokesSchema [2, 2] := by
  intro s p h
  have := stokes_has.1 h
  simp only [stokesIndices, List.mem_cons, Prod.mk.injEq, List.not_mem_nil, or_false] at this
  rcases this with ⟨_, rfl⟩ | ⟨_, rfl⟩ | ⟨_, rfl⟩ | ⟨_, rfl⟩ <;> rfl

theorem demo_depth_out : SameDepth linearSchema [4] := by
  intro s p h
  have := linear_has.1 h
  simp only [linearIndices, List.mem_cons, Prod.mk.injEq, List.not_mem_nil, or_false] at this
  rcases this with ⟨_, rfl⟩ | ⟨_, rfl⟩ | ⟨_, rfl⟩ | ⟨_, rfl⟩ <;> rfl

theorem demo_kinds : KindsMatch .float64 linearSchema := by
  refine Or.inl ⟨rfl, fun s p h => ?_⟩
  have := linear_has.1 h
  simp only [linearIndices, List.mem_cons, Prod.mk.injEq, List.not_mem_nil, or_false] at this
  rcases this with ⟨rfl, _⟩ | ⟨rfl, _⟩ | ⟨rfl, _⟩ | ⟨rfl, _⟩ <;> decide

theorem demo_available : Available stokesSchema linearSchema := by
  have hI : Has stokesSchema "I" [0, 0] := stokes_has.2 (by simp [stokesIndices])
  have hQ : Has stokesSchema "Q" [0, 1] := stokes_has.2 (by simp [stokesIndices])
  have hU : Has stokesSchema "U" [1, 0] := stokes_has.2 (by simp [stokesIndices])
  have hV : Has stokesSchema "V" [1, 1] := stokes_has.2 (by simp [stokesIndices])
  intro s p h
  refine stokes_avail hI hQ hU hV ?_
  have := linear_has.1 h
  simp only [linearIndices, List.mem_cons, Prod.mk.injEq, List.not_mem_nil, or_false] at this
  rcases this with ⟨rfl, _⟩ | ⟨rfl, _⟩ | ⟨rfl, _⟩ | ⟨rfl, _⟩ <;> decide

theorem demo_nonempty : ∃ s p, Has linearSchema s p := ⟨"XX", [0], linear_has.2 (by simp [linearIndices])⟩

/-- Seven sources, all Stokes parameters one. -/
noncomputable def demoInput (lead : List Nat) : GArr ℂ := .dense (lead ++ [2, 2]) fun _ => 1

/-- The hypotheses of `C121_partial` are met. -/
example : ∃ g, ConvertGpu false .float64 (demoInput [7]) (.list stokesSchema) (.list linearSchema) (.ok g) ∧ g.shape = [7, 4] := by
  obtain ⟨⟨r, hr⟩, h⟩ := C121_partial false .float64 (demoInput [7]) [7] stokesSchema linearSchema _ _ _ _ stokes_indices
    linear_indices demo_depth_in demo_depth_out demo_kinds (by decide) demo_available demo_nonempty rfl ⟨2, rfl⟩ rfl
    (contiguous_dense _ _) (fun _ i _ => Complex.one_im) (by decide) (by decide)
  obtain ⟨g, rfl, hs, _⟩ := h r hr
  exact ⟨g, hr, hs⟩

/-- What the CPU gives for equal Stokes parameters: `XX = I + Q`. -/
theorem demo_cpu (lead : List Nat) : ∃ cpu, convert (lead ++ [2, 2]) (fun _ => 1) (.list stokesSchema) (.list linearSchema) = .ok cpu ∧
    cpu [0] = some (1 + 1) := by
  rw [convert_eq stokes_indices linear_indices]
  exact ⟨_, rfl, by simp [runMapping]⟩

/-- **C121** fails for 2^31 numbers: the number of elements, an `int` in the kernel, is negative, nothing is written, and the
result is whatever the memory held. -/
theorem C121_large_violated : ∃ (g : GArr ℂ) (cpu : List Nat → Option ℂ),
    ConvertGpu false .float64 (demoInput [2 ^ 29]) (.list stokesSchema) (.list linearSchema) (.ok g) ∧
    convert (demoInput [2 ^ 29]).shape (fun q => (demoInput [2 ^ 29]).at ([0] ++ q)) (.list stokesSchema) (.list linearSchema) =
      .ok cpu ∧ cpu [0] ≠ some (g.at [0, 0]) := by
  obtain ⟨cpu, hcpu, hv⟩ := demo_cpu [2 ^ 29]
  obtain ⟨es, cs, hplan, _⟩ := plan_ok (t := .float64) false [2 ^ 29] stokes_indices linear_indices demo_depth_in demo_depth_out
    demo_kinds (by decide) demo_available demo_nonempty rfl ⟨2, rfl⟩
  refine ⟨.dense ([2 ^ 29] ++ [4]) fun _ => 0, cpu, ?_, hcpu, ?_⟩
  · generalize hN : 2 ^ 29 = N at *
    unfold ConvertGpu
    rw [show (demoInput [N]).shape = [N] ++ [2, 2] from rfl, hplan]
    dsimp only
    have etake : List.take (List.length ([N] ++ [2, 2]) - List.length [2, 2]) ([N] ++ [2, 2]) = [N] := rfl
    rw [etake, if_neg fun h => h (size_append _ _).symm]
    obtain ⟨inputs, hin⟩ := reshaped_exists (demoInput [N]) [size [N], size [2, 2]]
    refine ⟨inputs, hin, Or.inr (Or.inr ⟨hin.2.2.1 (contiguous_dense _ _), rfl, fun _ _ => 0, fun _ _ => 0, .ok fun _ => 0, ?_, rfl⟩)⟩
    have hfits : Fits ⟨size [N], 1, 1⟩ convertBlock := by
      unfold Fits convertBlock
      simp only [size, Nat.mul_one]
      rw [← hN]
      decide
    rw [launch_iff block_pos.1 block_pos.2.1 block_pos.2.2 hfits]
    refine ⟨_, rfl, fun _ _ => 0, fun _ _ => 0, fun _ => 0, [], ?_, ?_, rfl⟩
    · intro b _
      exact ⟨[], by simp [convertKernel], rfl⟩
    · have hnil : ∀ b t : Dim3, ∀ sh, (convertKernel ⟨if ConvType.float64.isComplex then .real else .complex, es.map Prod.snd,
          [2, 2], [4]⟩ inputs (fun _ _ => 0) fun _ _ => 0).body b t sh = [] := by
        intro b t sh
        unfold convertKernel
        dsimp only
        rw [hin.1]
        have e1 : size [2, 2] = 4 := rfl
        have e2 : [size [N], 4].getD 0 0 = N := by simp [size]
        have e3 : wrap32 (4 * N) = -2 ^ 31 := by rw [← hN]; decide
        have e4 : 0 ≤ wrap32 (4 * ((N + (4 - 1)) / 4)) := by rw [← hN]; decide
        rw [e1, e2, e3]
        generalize wrap32 (4 * ((N + (4 - 1)) / 4)) = mulup at *
        generalize b.x * convertBlock.x + t.x = source
        clear e3 hplan hfits hcpu
        split
        · rfl
        · split
          · rfl
          · split
            · rfl
            · rw [List.eq_nil_iff_forall_not_mem]
              intro w hw
              rw [mem_writeRegs e4] at hw
              obtain ⟨e, _, hlt, _⟩ := hw
              have : (0 : Int) ≤ e * mulup := mul_nonneg (Int.natCast_nonneg e) e4
              omega
      simp only [hnil]
      simp
  · rw [hv]
    intro h
    have h2 := Option.some.inj h
    rw [show (GArr.dense ([2 ^ 29] ++ [4]) fun _ => (0 : ℂ)).at [0, 0] = 0 from rfl] at h2
    norm_num at h2

/-- **C121** fails to refuse input whose extents are not those of its schema once a kernel for the same schemas and type exists:
extents (5, 4, 1) are taken for 2 by 2 elements. -/
theorem C121_shape_violated : ∃ (a g : GArr ℂ), a.shape = [5, 4, 1] ∧
    (∀ r, ConvertGpu false .float64 a (.list stokesSchema) (.list linearSchema) r → r = .error .valueError) ∧
    ConvertGpu true .float64 a (.list stokesSchema) (.list linearSchema) (.ok g) := by
  have hgen : ∀ shape, convertPlan true .float64 shape (.list stokesSchema) (.list linearSchema) =
      convertPlan true .float64 ([5] ++ [2, 2]) (.list stokesSchema) (.list linearSchema) := by
    intro shape
    unfold convertPlan
    simp
  obtain ⟨es, cs, hplan, _⟩ := plan_ok (t := .float64) true [5] stokes_indices linear_indices demo_depth_in demo_depth_out
    demo_kinds (by decide) demo_available demo_nonempty rfl ⟨2, rfl⟩
  set a : GArr ℂ := .dense [5, 4, 1] fun _ => 1 with ha
  obtain ⟨inputs, hin⟩ := reshaped_exists a [size [5], size [2, 2]]
  set P : ConvPlan := ⟨if ConvType.float64.isComplex then .real else .complex, es.map Prod.snd, [2, 2], [4]⟩ with hP
  have hfits : Fits ⟨size [5], 1, 1⟩ convertBlock := by
    unfold Fits convertBlock
    decide
  obtain ⟨r', hr'⟩ := launch_exists (convertKernel P inputs (fun _ _ => 0) fun _ _ => 0) ⟨size [5], 1, 1⟩ convertBlock
  obtain ⟨out, rfl, _⟩ := launch_ok block_pos.1 block_pos.2.1 block_pos.2.2 hfits hr'
  refine ⟨a, .dense ([5] ++ [4]) out, rfl, ?_, ?_⟩
  · intro r hr
    unfold ConvertGpu at hr
    have : convertPlan false .float64 a.shape (.list stokesSchema) (.list linearSchema) = .error .valueError := by
      unfold convertPlan
      simp only [stokes_indices, linear_indices, bind, Except.bind]
      rfl
    rw [this] at hr
    exact hr
  · unfold ConvertGpu
    rw [hgen, hplan]
    dsimp only
    rw [show a.shape.take (a.shape.length - [2, 2].length) = [5] from rfl, if_neg (show ¬ size [5] * size P.inShape ≠ size a.shape from fun h => h rfl)]
    exact ⟨inputs, hin, Or.inr (Or.inr ⟨hin.2.2.1 (contiguous_dense _ _), rfl, _, _, _, hr', rfl⟩)⟩

/-- The input of `C121_strided`: every other row. -/
example : ¬ (⟨[3, 4], [8, 1], 0, fun _ => (1 : ℂ)⟩ : GArr ℂ).Contiguous := by
  intro h
  have := h [1, 0] (List.Forall₂.cons (by decide) (List.Forall₂.cons (by decide) List.Forall₂.nil))
  simp [offset, ravel, size] at this

/-- The premise of `C121_errors`. -/
example : convert [7, 2] (fun _ => 1) (.list [.str "I", .str "Q"]) (.list [.str "XR"]) = .error .unboundLocalError := by
  rw [show ([7, 2] : List Nat) = [7] ++ [2] from rfl,
    convert_eq (ires := [("I", [0]), ("Q", [1])]) (ores := [("XR", [0])]) (oshape := [1]) rfl rfl]
  rfl

end Verif.Cuda
