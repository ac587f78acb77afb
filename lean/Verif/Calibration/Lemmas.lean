/-
Auxiliary facts about the calibration loops.
-/
import Verif.Calibration.Model
import Verif.Calibration.Spec
import Verif.Loops
import Mathlib.LinearAlgebra.Matrix.ConjTranspose
import Mathlib.LinearAlgebra.Matrix.Determinant.Basic
import Mathlib.Tactic.Ring
import Mathlib.Tactic.FieldSimp
import Mathlib.Tactic.LinearCombination
import Mathlib.Tactic.FinCases

set_option autoImplicit false

namespace Verif.Calibration

open Function

theorem upd2_apply {V : Type*} (a : Nat → Nat → V) (r nu : Nat) (x : V) (r' nu' : Nat) :
    upd2 a r nu x r' nu' = if r' = r ∧ nu' = nu then x else a r' nu' := by
  unfold upd2
  by_cases h : r' = r
  · subst h
    by_cases h2 : nu' = nu
    · subst h2; simp
    · simp [h2]
  · simp [h]

section
variable {V : Type*} {ntim : Nat} {lo cnt : Nat → Nat} {nchan : Nat}
  {cell : Nat → Nat → Nat → V → V} {init : Nat → Nat → V}

theorem chanLoop_apply (t row : Nat) (vis : Nat → Nat → V) (r nu : Nat) :
    (forRange nchan vis fun nu vis => upd2 vis row nu (cell t row nu (vis row nu))) r nu =
      if r = row ∧ nu < nchan then cell t row nu (vis row nu) else vis r nu := by
  split
  · rename_i h
    obtain ⟨rfl, h⟩ := h
    refine forRange_single (fun v : Nat → Nat → V => v r nu) nu h (cell t r nu) ?_ ?_
    · intro s; simp [upd2_apply]
    · intro i _ hi s; simp [upd2_apply, Ne.symm hi]
  · rename_i h
    refine forRange_const (fun v : Nat → Nat → V => v r nu) ?_
    intro i hi s
    simp only [upd2_apply]
    rw [if_neg]
    rintro ⟨rfl, rfl⟩
    exact h ⟨rfl, hi⟩

theorem rowLoop_apply (t : Nat) (vis : Nat → Nat → V) (r nu : Nat) :
    (forRange (cnt t) vis fun k vis => forRange nchan vis fun nu vis =>
        upd2 vis (lo t + k) nu (cell t (lo t + k) nu (vis (lo t + k) nu))) r nu =
      if (lo t ≤ r ∧ r < lo t + cnt t) ∧ nu < nchan then cell t r nu (vis r nu) else vis r nu := by
  split
  · rename_i h
    obtain ⟨⟨h1, h2⟩, h3⟩ := h
    refine forRange_single (fun v : Nat → Nat → V => v r nu) (r - lo t) (by omega) (cell t r nu) ?_ ?_
    · intro s
      have hr : lo t + (r - lo t) = r := by omega
      simp only [hr]
      rw [chanLoop_apply, if_pos ⟨rfl, h3⟩]
    · intro i _ hi s
      rw [chanLoop_apply, if_neg]
      rintro ⟨h, _⟩
      omega
  · rename_i h
    refine forRange_const (fun v : Nat → Nat → V => v r nu) ?_
    intro i hi s
    rw [chanLoop_apply, if_neg]
    rintro ⟨h1, h2⟩
    exact h ⟨⟨by omega, by omega⟩, h2⟩

/-- The cell of a row in exactly one bin is written once. -/
theorem binLoop_bin (hd : Disjoint' ntim lo cnt) {t row nu : Nat} (ht : t < ntim)
    (hr : InBin lo cnt t row) (hnu : nu < nchan) :
    binLoop ntim lo cnt nchan cell init row nu = cell t row nu (init row nu) := by
  unfold binLoop
  refine forRange_single (fun v : Nat → Nat → V => v row nu) t ht (cell t row nu) ?_ ?_
  · intro s
    rw [rowLoop_apply, if_pos ⟨hr, hnu⟩]
  · intro i hi hne s
    rw [rowLoop_apply, if_neg]
    rintro ⟨h, _⟩
    exact hne (hd i hi t ht row h hr)

/-- The cell of a row in no bin is not written. -/
theorem binLoop_nobin {row nu : Nat} (h : (∀ t < ntim, ¬ InBin lo cnt t row) ∨ nchan ≤ nu) :
    binLoop ntim lo cnt nchan cell init row nu = init row nu := by
  unfold binLoop
  refine forRange_const (fun v : Nat → Nat → V => v row nu) ?_
  intro i hi s
  rw [rowLoop_apply, if_neg]
  rintro ⟨h1, h2⟩
  rcases h with h | h
  · exact h i hi h1
  · omega

theorem binLoop_congr {lo' : Nat → Nat} (h : ∀ t < ntim, lo t = lo' t) :
    binLoop ntim lo cnt nchan cell init = binLoop ntim lo' cnt nchan cell init := by
  unfold binLoop
  refine forRange_congr fun t ht s => ?_
  rw [h t ht]

end

theorem minIdx_spec {n : Nat} {idx : Nat → Nat} {m : Nat} (h : minIdx n idx = .ok m) :
    IsMin n idx m := by
  unfold minIdx at h
  split at h
  · cases h
  · rename_i k
    cases h
    refine forRange_inv (n := k) (P := fun j a => (∃ t < j + 1, idx t = a) ∧ ∀ t < j + 1, a ≤ idx t) ?_ ?_
    · exact ⟨⟨0, by omega, rfl⟩, fun t ht => by obtain rfl : t = 0 := by omega
                                                exact le_rfl⟩
    · rintro i a hi ⟨⟨t, ht, hta⟩, h2⟩
      refine ⟨?_, fun t' ht' => ?_⟩
      · rcases min_choice a (idx (i + 1)) with hc | hc <;> rw [hc]
        · exact ⟨t, by omega, hta⟩
        · exact ⟨i + 1, by omega, rfl⟩
      · rcases (by omega : t' < i + 1 ∨ t' = i + 1) with h | rfl
        · exact (min_le_left _ _).trans (h2 t' h)
        · exact min_le_right _ _

theorem IsMin.unique {n : Nat} {idx : Nat → Nat} {m m' : Nat} (h : IsMin n idx m) (h' : IsMin n idx m') :
    m = m' := by
  obtain ⟨⟨t, ht, rfl⟩, h2⟩ := h
  obtain ⟨⟨t', ht', rfl⟩, h2'⟩ := h'
  exact le_antisymm (h2 _ ht') (h2' _ ht)

theorem shiftIdx_ok {n : Nat} {idx : Nat → Nat} {m : Nat} (h : IsMin n idx m) :
    shiftIdx n idx = .ok fun t => idx t - m := by
  unfold shiftIdx
  cases hm : minIdx n idx with
  | error e =>
    obtain ⟨⟨t, ht, _⟩, _⟩ := h
    unfold minIdx at hm
    split at hm
    · omega
    · cases hm
  | ok m' => rw [(minIdx_spec hm).unique h]

theorem exists_min {n : Nat} (idx : Nat → Nat) (hn : 0 < n) : ∃ m, IsMin n idx m := by
  cases hm : minIdx n idx with
  | error e =>
    unfold minIdx at hm
    split at hm
    · omega
    · cases hm
  | ok m => exact ⟨m, minIdx_spec hm⟩

theorem shiftIdx_zero (idx : Nat → Nat) : shiftIdx 0 idx = .error .valueError := rfl

/-- Shifted bins contain the shifted rows. -/
theorem inBin_shift {n : Nat} {idx cnt : Nat → Nat} {m t row : Nat} (h : IsMin n idx m) (ht : t < n) :
    InBin (fun t => idx t - m) cnt t row ↔ InBin idx cnt t (m + row) := by
  have := h.2 t ht
  simp only [InBin]
  omega

theorem disjoint_shift {n : Nat} {idx cnt : Nat → Nat} {m : Nat} (h : IsMin n idx m)
    (hd : Disjoint' n idx cnt) : Disjoint' n (fun t => idx t - m) cnt := by
  intro t ht t' ht' row h1 h2
  exact hd t ht t' ht' (m + row) ((inBin_shift h ht).1 h1) ((inBin_shift h ht').1 h2)

section kernels
variable {K : Type*} [Field K] [StarRing K]

theorem jonesMulDD_eq (ndir : Nat) (a1j model a2j : Nat → Nat → K) (out : Nat → K) (c : Nat) :
    jonesMulDD ndir a1j model a2j out c =
      out c + ∑ s ∈ Finset.range ndir, a1j s c * model s c * star (a2j s c) :=
  forRange_sum (fun o : Nat → K => o c) _ fun _ _ _ => rfl

theorem subtractDD_eq (ndir : Nat) (a1j model a2j : Nat → Nat → K) (blj : Nat → K) (c : Nat) :
    subtractDD ndir a1j blj a2j model c =
      blj c - ∑ s ∈ Finset.range ndir, a1j s c * model s c * star (a2j s c) := by
  rw [sub_eq_add_neg, ← Finset.sum_neg_distrib]
  exact forRange_sum (fun o : Nat → K => o c) _ fun _ _ _ => sub_eq_add_neg _ _

theorem diag_entries (a b : Fin 2 → K) (x : M2 K) (i j : Fin 2) :
    (Matrix.diagonal a * x * (Matrix.diagonal b).conjTranspose) i j = a i * x i j * star (b j) := by
  rw [Matrix.diagonal_conjTranspose, Matrix.mul_diagonal, Matrix.diagonal_mul]
  rfl

theorem jonesMulD_eq (ndir : Nat) (a1j : Nat → Fin 2 → K) (model : Nat → M2 K) (a2j : Nat → Fin 2 → K)
    (out : M2 K) : jonesMulD ndir a1j model a2j out = out + ∑ s ∈ Finset.range ndir,
      Matrix.diagonal (a1j s) * model s * (Matrix.diagonal (a2j s)).conjTranspose := by
  refine forRange_sum (fun o : M2 K => o) _ fun s _ o => ?_
  ext i j
  rw [Matrix.add_apply, diag_entries]
  fin_cases i <;> fin_cases j <;> rfl

theorem subtractD_eq (ndir : Nat) (a1j : Nat → Fin 2 → K) (model : Nat → M2 K) (a2j : Nat → Fin 2 → K)
    (blj : M2 K) : subtractD ndir a1j blj a2j model = blj - ∑ s ∈ Finset.range ndir,
      Matrix.diagonal (a1j s) * model s * (Matrix.diagonal (a2j s)).conjTranspose := by
  rw [sub_eq_add_neg, ← Finset.sum_neg_distrib]
  refine forRange_sum (fun o : M2 K => o) _ fun s _ o => ?_
  ext i j
  rw [Matrix.add_apply, Matrix.neg_apply, diag_entries, ← sub_eq_add_neg]
  fin_cases i <;> fin_cases j <;> rfl

theorem full_entries (a x b : M2 K) (i j : Fin 2) :
    (a * x * b.conjTranspose) i j = (a i 0 * x 0 0 + a i 1 * x 1 0) * star (b j 0) +
      (a i 0 * x 0 1 + a i 1 * x 1 1) * star (b j 1) := by
  simp [Matrix.mul_apply, Fin.sum_univ_two, Matrix.conjTranspose_apply]

theorem fullTerms_eq (a x b : M2 K) : fullTerms a x b = a * x * b.conjTranspose := by
  ext i j
  rw [full_entries]
  fin_cases i <;> fin_cases j <;> simp [fullTerms] <;> ring

theorem residualTerms_eq (a x b : M2 K) : residualTerms a x b = a * x * b.conjTranspose := by
  ext i j
  rw [full_entries]
  fin_cases i <;> fin_cases j <;> simp [residualTerms] <;> ring

theorem jonesMulF_eq (ndir : Nat) (a1j model a2j : Nat → M2 K) (out : M2 K) :
    jonesMulF ndir a1j model a2j out = out + ∑ s ∈ Finset.range ndir,
      a1j s * model s * (a2j s).conjTranspose := by
  refine forRange_sum (fun o : M2 K => o) _ fun s _ o => ?_
  rw [← fullTerms_eq]
  ext i j
  rw [Matrix.add_apply]
  fin_cases i <;> fin_cases j <;> rfl

theorem subtractF_eq (ndir : Nat) (a1j model a2j : Nat → M2 K) (blj : M2 K) :
    subtractF ndir a1j blj a2j model = blj - ∑ s ∈ Finset.range ndir,
      a1j s * model s * (a2j s).conjTranspose := by
  rw [sub_eq_add_neg, ← Finset.sum_neg_distrib]
  refine forRange_sum (fun o : M2 K => o) _ fun s _ o => ?_
  rw [← residualTerms_eq, ← sub_eq_add_neg]
  ext i j
  rw [Matrix.sub_apply]
  fin_cases i <;> fin_cases j <;> rfl

theorem inverseMulDD_eq (ncorr : Nat) (a1j blj a2j out : Nat → K) (c : Nat) (hc : c < ncorr) :
    inverseMulDD ncorr a1j blj a2j out c = blj c / (a1j c * star (a2j c)) :=
  forRange_single (fun o : Nat → K => o c) c hc (fun _ => blj c / (a1j c * star (a2j c)))
    (fun s => by simp) (fun i _ hi s => by simp [Ne.symm hi])

theorem inverseMulD_cancel (a b : Fin 2 → K) (ha : ∀ i, a i ≠ 0) (hb : ∀ i, b i ≠ 0) (x : M2 K) :
    inverseMulD a (Matrix.diagonal a * x * (Matrix.diagonal b).conjTranspose) b = x := by
  have ha0 := ha 0
  have ha1 := ha 1
  have hb0 : star (b 0) ≠ 0 := star_ne_zero.2 (hb 0)
  have hb1 : star (b 1) ≠ 0 := star_ne_zero.2 (hb 1)
  ext i j
  unfold inverseMulD
  simp only [diag_entries]
  fin_cases i <;> fin_cases j <;> simp <;> field_simp

theorem inverseMulF_cancel (a b x : M2 K) (ha : a.det ≠ 0) (hb : b.det ≠ 0) :
    inverseMulF a (a * x * b.conjTranspose) b = x := by
  rw [Matrix.det_fin_two] at ha
  have hb' : star (b 0 0) * star (b 1 1) - star (b 0 1) * star (b 1 0) ≠ 0 := by
    rw [Matrix.det_fin_two] at hb
    have : star (b 0 0 * b 1 1 - b 0 1 * b 1 0) ≠ 0 := star_ne_zero.2 hb
    simpa [mul_comm] using this
  ext i j
  unfold inverseMulF
  simp only [full_entries]
  generalize hd : a 0 0 * a 1 1 - a 0 1 * a 1 0 = d at *
  generalize he : star (b 0 0) * star (b 1 1) - star (b 0 1) * star (b 1 0) = e at *
  fin_cases i <;> fin_cases j <;> simp <;> field_simp <;> rw [← hd, ← he] <;> ring

end kernels

end Verif.Calibration
