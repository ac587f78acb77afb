/-
Lemmas about the CUDA version of predict_vis: shuffles multiply 2x2 matrices, a warp computes the measurement equation.
-/
import Verif.Cuda.PredictSpec
import Verif.Cuda.Lemmas
import Verif.Rime.Spec
import Mathlib.LinearAlgebra.Matrix.ConjTranspose
import Mathlib.Tactic.FinCases
import Mathlib.Tactic.Ring
import Mathlib.Algebra.BigOperators.Fin

set_option autoImplicit false

namespace Verif.Cuda

open Verif.Rime (Terms M2 rime)

/-! ### indices -/

theorem wrap32_eq {k : Nat} (h : k < 2 ^ 31) : wrap32 k = k := by
  unfold wrap32
  apply Int.bmod_eq_of_le <;> omega

theorem stepOffset_ravel {α : Type*} (a : GArr α) {i : List Nat} (hi : IsIdx a.shape i) (hne : a.shape ≠ []) :
    a.flatInt (ravel a.shape i) = a.at i := by
  unfold GArr.flatInt GArr.at
  congr 2
  generalize a.strides = st
  have hj : List.Forall₂ (· < ·) i a.shape := hi
  clear hi
  generalize a.shape = sh at hj hne
  clear a
  induction hj generalizing st with
  | nil => exact absurd rfl hne
  | @cons x n is ns h hrest ih =>
    cases st with
    | nil => cases ns <;> rfl
    | cons s ss =>
      cases ns with
      | nil =>
        cases hrest
        simp [stepOffset, ravel, offset, size]
      | cons m ms =>
        have hlt : ravel (m :: ms) is < size (m :: ms) := ravel_lt hrest
        rw [stepOffset, offset, ravel, ← ih ss (by simp)]
        have e1 : ((x * size (m :: ms) + ravel (m :: ms) is : Nat) : Int).tdiv (size (m :: ms) : Nat) = x := by
          rw [Int.tdiv_eq_ediv_of_nonneg (by omega), ← Int.natCast_ediv]
          congr 1
          rw [Nat.mul_comm, Nat.mul_add_div (by omega), Nat.div_eq_of_lt hlt, Nat.add_zero]
        have e2 : ((x * size (m :: ms) + ravel (m :: ms) is : Nat) : Int).tmod (size (m :: ms) : Nat) =
            (ravel (m :: ms) is : Nat) := by
          rw [Int.tmod_eq_emod_of_nonneg (by omega), ← Int.natCast_emod]
          congr 1
          rw [Nat.mul_comm, Nat.mul_add_mod, Nat.mod_eq_of_lt hlt]
        rw [e1, e2]

theorem stepOffset_dense (sh : List Nat) (hne : sh ≠ []) (k : Int) : stepOffset sh (cStrides sh) k = k := by
  induction sh generalizing k with
  | nil => exact absurd rfl hne
  | cons n ns ih =>
    cases ns with
    | nil => simp [stepOffset, cStrides, size]
    | cons m ms =>
      rw [cStrides, stepOffset, ih (by simp)]
      exact Int.mul_tdiv_add_tmod _ _

theorem flatInt_dense {α : Type*} (sh : List Nat) (mem : Int → α) (hne : sh ≠ []) (k : Int) :
    (GArr.dense sh mem).flatInt k = mem k := by
  unfold GArr.flatInt GArr.dense
  dsimp only
  rw [stepOffset_dense sh hne, zero_add]

theorem flatInt_reshape {α : Type*} (a : GArr α) (sh : List Nat) (hne : sh ≠ []) (k : Nat) :
    (a.reshape sh).flatInt k = a.flat k := by
  unfold GArr.flatInt GArr.reshape GArr.dense
  dsimp only
  rw [stepOffset_dense sh hne]
  simp

/-! ### shuffles -/

theorem cmul_eq (a b : ℂ) : cmul a b = a * b := by
  apply Complex.ext <;> simp [cmul]

theorem cmulConj_eq (a b : ℂ) : cmulConj a b = a * star b := by
  apply Complex.ext <;> simp [cmulConj]

theorem cmulConj'_eq (a b : ℂ) : cmulConj' a b = a * star b := by
  apply Complex.ext
  · simp [cmulConj']
  · simp [cmulConj']
    ring

/-- The four lanes of a channel. -/
def quad (q : Nat) (R : Reg) : M2 ℂ := !![R (4 * q), R (4 * q + 1); R (4 * q + 2), R (4 * q + 3)]

theorem quad_mul {q : Nat} (hq : q < 8) (J K : Reg) : quad q (multiply4 J K) = quad q J * quad q K := by
  have d0 : (4 * q) / 4 = q := by omega
  have d1 : (4 * q + 1) / 4 = q := by omega
  have d2 : (4 * q + 2) / 4 = q := by omega
  have d3 : (4 * q + 3) / 4 = q := by omega
  have m0 : (4 * q) % 2 = 0 := by omega
  have m1 : (4 * q + 1) % 2 = 1 := by omega
  have m2 : (4 * q + 2) % 2 = 0 := by omega
  have m3 : (4 * q + 3) % 2 = 1 := by omega
  have r0 : (4 * q) % 32 = 4 * q := by omega
  have r1 : (4 * q + 1) % 32 = 4 * q + 1 := by omega
  have r2 : (4 * q + 2) % 32 = 4 * q + 2 := by omega
  have r3 : (4 * q + 3) % 32 = 4 * q + 3 := by omega
  ext i j
  fin_cases i <;> fin_cases j <;>
    simp [quad, multiply4, Util.Cycles.shfl, baseIdx, isOdd, d0, d1, d2, d3, m0, m1, m2, m3, r0, r1, r2, r3, cmul_eq, Matrix.mul_apply,
      Fin.sum_univ_two] <;> ring

theorem quad_mulConj {q : Nat} (hq : q < 8) (J K : Reg) : quad q (multiplyConj4 J K) = quad q J * star (quad q K) := by
  have d0 : (4 * q) / 4 = q := by omega
  have d1 : (4 * q + 1) / 4 = q := by omega
  have d2 : (4 * q + 2) / 4 = q := by omega
  have d3 : (4 * q + 3) / 4 = q := by omega
  have m0 : (4 * q) % 2 = 0 := by omega
  have m1 : (4 * q + 1) % 2 = 1 := by omega
  have m2 : (4 * q + 2) % 2 = 0 := by omega
  have m3 : (4 * q + 3) % 2 = 1 := by omega
  have r0 : (4 * q) % 32 = 4 * q := by omega
  have r1 : (4 * q + 1) % 32 = 4 * q + 1 := by omega
  have r2 : (4 * q + 2) % 32 = 4 * q + 2 := by omega
  have r3 : (4 * q + 3) % 32 = 4 * q + 3 := by omega
  ext i j
  fin_cases i <;> fin_cases j <;>
    simp [quad, multiplyConj4, Util.Cycles.shfl, baseIdx, isOdd, d0, d1, d2, d3, m0, m1, m2, m3, r0, r1, r2, r3, cmulConj_eq,
      Matrix.mul_apply, Fin.sum_univ_two, Matrix.star_eq_conjTranspose, Matrix.conjTranspose_apply] <;> ring

/-! ### a warp -/

/-- A way to read a register that turns the operations of the kernel into those of a ring. -/
structure Reads {R : Type*} [Ring R] [StarRing R] (corrs : Nat) (φ : Reg → R) : Prop where
  zero : φ (fun _ => 0) = 0
  add : ∀ J K : Reg, φ (fun l => J l + K l) = φ J + φ K
  mul : ∀ J K : Reg, φ (jmMultiply corrs J K) = φ J * φ K
  mulConj : ∀ J K : Reg, φ (jmMultiplyConj corrs J K) = φ J * star (φ K)

theorem reads_quad {q : Nat} (hq : q < 8) : Reads 4 (quad q) where
  zero := by ext i j; fin_cases i <;> fin_cases j <;> simp [quad]
  add J K := by ext i j; fin_cases i <;> fin_cases j <;> simp [quad]
  mul J K := quad_mul hq J K
  mulConj J K := quad_mulConj hq J K

theorem reads_lane {corrs : Nat} (hc : corrs ≠ 4) (l : Nat) : Reads corrs (fun R : Reg => R l) where
  zero := rfl
  add J K := rfl
  mul J K := by rw [jmMultiply, if_neg hc]; exact cmul_eq _ _
  mulConj J K := by rw [jmMultiplyConj, if_neg hc]; exact cmulConj'_eq _ _

theorem reads_loop {R : Type*} [Ring R] [StarRing R] {corrs : Nat} {φ : Reg → R} (h : Reads corrs φ) (n : Nat) (init : Reg)
    (g : Nat → Reg) :
    φ (forRange n init fun s corr l => corr l + g s l) = φ init + ∑ s ∈ Finset.range n, φ (g s) := by
  induction n with
  | zero => simp
  | succ n ih =>
    rw [forRange_succ, h.add, ih, Finset.sum_range_succ, add_assoc]

/-- A warp computes the measurement equation. -/
theorem warp_value {R : Type*} [Ring R] [StarRing R] {corrs : Nat} {φ : Reg → R} (h : Reads corrs φ) (nrow : Nat) (e : Extents)
    (x : GTerms) (time ant1 ant2 row : Nat) (load : (Nat → ℂ) → Reg) :
    φ (predictWarp corrs nrow e x time ant1 ant2 row load) = rime e.nsrc
      (x.dde.map fun d =>
        (fun s => φ (load fun cc => d.1.flatInt (wrap32 (((s * e.ntime + time) * e.na + ant1) * (e.nchan * corrs) + cc))),
         fun s => φ (load fun cc => d.2.flatInt (wrap32 (((s * e.ntime + time) * e.na + ant2) * (e.nchan * corrs) + cc)))))
      (x.coh.map fun c s => φ (load fun cc => c.flatInt (wrap32 ((s * nrow + row) * (e.nchan * corrs) + cc))))
      (x.bvis.map fun b => φ (load fun cc => b.flatInt (wrap32 (row * (e.nchan * corrs) + cc))))
      (x.die.map fun g => (φ (load fun cc => g.1.flatInt (wrap32 ((time * e.na + ant1) * (e.nchan * corrs) + cc))),
        φ (load fun cc => g.2.flatInt (wrap32 ((time * e.na + ant2) * (e.nchan * corrs) + cc))))) := by
  obtain ⟨dde, coh, die, bvis⟩ := x
  unfold predictWarp rime
  rcases dde with _ | ⟨d1, d2⟩ <;> rcases coh with _ | c <;> rcases die with _ | ⟨g1, g2⟩ <;> rcases bvis with _ | b <;>
    dsimp only <;> (try simp only [h.mul, h.mulConj, reads_loop h, h.zero]) <;> simp [mul_assoc]

/-! ### the launch -/

/-- The registers of a warp after a read. -/
noncomputable def loadOf (junk : Dim3 → Nat → ℂ) (ncorrchan : Nat) (b : Dim3) (f : Nat → ℂ) : Reg := fun l =>
  if b.x * 32 + l < ncorrchan then f (b.x * 32 + l) else junk b l

theorem predictBlock_pos (single : Bool) :
    0 < (predictBlock single).x ∧ 0 < (predictBlock single).y ∧ 0 < (predictBlock single).z := by
  cases single <;> decide

/-- What a cell of the output holds. -/
theorem predict_out {single : Bool} {junk : Dim3 → Nat → ℂ} {corrs nrow : Nat} {e : Extents} {x : GTerms}
    {time ant1 ant2 : Nat → Nat} {out : Int → ℂ}
    (hrun : Runs (predictKernel (predictBlock single) junk corrs nrow e x time ant1 ant2)
      (blocks ⟨e.nchan * corrs, nrow, 1⟩ (predictBlock single)) (predictBlock single) out)
    (hsmall : nrow * (e.nchan * corrs) ≤ 2 ^ 31) {r cc : Nat} (hr : r < nrow) (hc : cc < e.nchan * corrs) :
    out ((r * (e.nchan * corrs) + cc : Nat) : Int) = predictWarp corrs nrow e x (time r) (ant1 r) (ant2 r) r
      (loadOf junk (e.nchan * corrs) ⟨cc / 32, r / (predictBlock single).y, 0⟩) (cc % 32) := by
  obtain ⟨hbx, hby, hbz⟩ := predictBlock_pos single
  have hx : (predictBlock single).x = 32 := rfl
  have hz : (predictBlock single).z = 1 := rfl
  have hlt : ∀ r' < nrow, ∀ c' < e.nchan * corrs, r' * (e.nchan * corrs) + c' < 2 ^ 31 := by
    intro r' hr' c' hc'
    have h1 : (r' + 1) * (e.nchan * corrs) ≤ nrow * (e.nchan * corrs) := Nat.mul_le_mul_right _ hr'
    rw [Nat.succ_mul] at h1
    omega
  obtain ⟨init, sh, out0, ws, hsh, hws, rfl⟩ := hrun
  refine out_eq hws _ _ ?_ ?_
  · intro b hb t ht en hen ho
    rw [mem_all] at hb ht
    simp only [predictKernel] at hen
    split at hen
    · simp at hen
    · rename_i hg
      simp only [Bool.or_eq_true, decide_eq_true_eq, not_or, not_le] at hg
      rw [List.mem_singleton] at hen
      subst hen
      dsimp only at ho ⊢
      rw [wrap32_eq (hlt _ hg.1 _ hg.2)] at ho
      have ho := Int.ofNat.inj ho
      have e1 : b.y * (predictBlock single).y + t.y = r := by
        have := congrArg (· / (e.nchan * corrs)) ho
        simpa [Nat.mul_comm _ (e.nchan * corrs), Nat.mul_add_div (show 0 < e.nchan * corrs by omega),
          Nat.div_eq_of_lt hg.2, Nat.div_eq_of_lt hc] using this
      have e2 : b.x * (predictBlock single).x + t.x = cc := by
        rw [e1] at ho
        omega
      have f1 : b.x = cc / 32 := by rw [hx] at e2 ht; omega
      have f2 : t.x = cc % 32 := by rw [hx] at e2 ht; omega
      have f3 : b.y = r / (predictBlock single).y := by
        rw [← e1, Nat.mul_comm, Nat.mul_add_div hby, Nat.div_eq_of_lt ht.2.1, Nat.add_zero]
      have f4 : b.z = 0 := by
        have : b.z < (1 + (predictBlock single).z - 1) / (predictBlock single).z := hb.2.2
        rw [hz] at this
        simpa using this
      have hb' : b = ⟨cc / 32, r / (predictBlock single).y, 0⟩ := by
        obtain ⟨x, y, z⟩ := b
        dsimp only at f1 f3 f4
        rw [f1, f3, f4]
      rw [e1, f2, hb', hx]
      rfl
  · have e1 : cc / 32 * 32 + cc % 32 = cc := Nat.div_add_mod' cc 32
    have e2 : r / (predictBlock single).y * (predictBlock single).y + r % (predictBlock single).y = r :=
      Nat.div_add_mod' r _
    refine ⟨⟨cc / 32, r / (predictBlock single).y, 0⟩, mem_all.2 ⟨div_lt_grid hbx hc, div_lt_grid hby hr, ?_⟩,
      ⟨cc % 32, r % (predictBlock single).y, 0⟩, mem_all.2 ⟨Nat.mod_lt _ hbx, Nat.mod_lt _ hby, hbz⟩, ?_⟩
    · exact Nat.div_pos (show (predictBlock single).z ≤ 1 + (predictBlock single).z - 1 by omega) hbz
    · simp only [predictKernel, hx, e1, e2]
      rw [if_neg (by simp; omega), wrap32_eq (hlt _ hr _ hc)]
      exact ⟨_, List.mem_singleton.2 rfl⟩

/-! ### elements of the arguments -/

theorem flatInt_at {a : GArr ℂ} {idx : List Nat} {k : Nat} (hi : IsIdx a.shape idx) (hne : a.shape ≠ [])
    (hs : size a.shape ≤ 2 ^ 31) (hk : k = ravel a.shape idx) : a.flatInt (wrap32 k) = a.at idx := by
  have := ravel_lt hi
  rw [wrap32_eq (by omega), hk, stepOffset_ravel a hi hne]

theorem flatten_at {a : GArr ℂ} {idx : List Nat} {k n : Nat} (hi : IsIdx a.shape idx)
    (hs : size a.shape ≤ 2 ^ 31) (hk : k = ravel a.shape idx) : (flattenCorrs n a).flatInt (wrap32 k) = a.at idx := by
  have := ravel_lt hi
  unfold flattenCorrs
  rw [wrap32_eq (by omega), hk, flatInt_reshape _ _ (by simp), flat_ravel a hi]

theorem load_quad {junk : Dim3 → Nat → ℂ} {nchan f y : Nat} (hf : f < nchan) (g : Nat → ℂ) :
    quad (f % 8) (loadOf junk (nchan * 4) ⟨f / 8, y, 0⟩ g) = .of fun i j => g (4 * f + (2 * i + j)) := by
  have key : ∀ c < 4, loadOf junk (nchan * 4) ⟨f / 8, y, 0⟩ g (4 * (f % 8) + c) = g (4 * f + c) := by
    intro c hc
    unfold loadOf
    dsimp only
    have : f / 8 * 32 + (4 * (f % 8) + c) = 4 * f + c := by omega
    rw [this, if_pos (by omega)]
  ext i j
  fin_cases i <;> fin_cases j
  · exact key 0 (by omega)
  · exact key 1 (by omega)
  · exact key 2 (by omega)
  · exact key 3 (by omega)

end Verif.Cuda
