/-
Auxiliary facts about the phase-only loops.
-/
import Verif.Calibration.Model2
import Verif.Calibration.Lemmas
import Mathlib.Analysis.SpecialFunctions.ExpDeriv
import Mathlib.Analysis.Calculus.Deriv.Add
import Mathlib.Analysis.Calculus.Deriv.Mul

set_option autoImplicit false

noncomputable section

namespace Verif.Calibration

open Complex

theorem nest_sum {σ M : Type*} [AddCommMonoid M] {ntim : Nat} {lo cnt : Nat → Nat} {nchan ndir : Nat}
    {anyFlag : Nat → Nat → Bool} {body : Nat → Nat → Nat → Nat → σ → σ} {init : σ}
    (obs : σ → M) (g : Nat → Nat → Nat → Nat → M)
    (h : ∀ t < ntim, ∀ row, ∀ nu < nchan, ∀ s < ndir, ∀ st,
      obs (body t row nu s st) = obs st + g t row nu s) :
    obs (nest ntim lo cnt nchan ndir anyFlag body init) = obs init +
      ∑ t ∈ Finset.range ntim, ∑ k ∈ Finset.range (cnt t), ∑ nu ∈ Finset.range nchan,
        if anyFlag (lo t + k) nu then 0 else ∑ s ∈ Finset.range ndir, g t (lo t + k) nu s := by
  unfold nest
  refine forRange_sum obs _ fun t ht st => ?_
  refine forRange_sum obs _ fun k _ st => ?_
  refine forRange_sum obs _ fun nu hnu st => ?_
  split
  · rw [add_zero]
  · exact forRange_sum obs _ fun s hs st => h t ht _ nu hnu s hs st

theorem addCell_apply {M : Type*} [AddCommMonoid M] (a : Arr5 M) (t p nu s : Nat) (v : Nat → M)
    (t' p' nu' s' c : Nat) :
    addCell a t p nu s v t' p' nu' s' c =
      a t' p' nu' s' c + if t' = t ∧ p' = p ∧ nu' = nu ∧ s' = s then v c else 0 := by
  unfold addCell
  split <;> simp

/-- Collapse a sum over all loops to the rows of one bin. -/
theorem nest_collapse {M : Type*} [AddCommMonoid M] {ntim : Nat} {lo cnt : Nat → Nat} {nchan ndir : Nat}
    {anyFlag : Nat → Nat → Bool} (x : Nat → M) {t0 nu0 s0 : Nat} (ht : t0 < ntim) (hnu : nu0 < nchan)
    (hs : s0 < ndir) :
    (∑ t ∈ Finset.range ntim, ∑ k ∈ Finset.range (cnt t), ∑ nu ∈ Finset.range nchan,
        if anyFlag (lo t + k) nu then 0 else ∑ s ∈ Finset.range ndir,
          if t0 = t ∧ nu0 = nu ∧ s0 = s then x (lo t + k) else 0) =
      ∑ k ∈ Finset.range (cnt t0), if anyFlag (lo t0 + k) nu0 then 0 else x (lo t0 + k) := by
  rw [Finset.sum_eq_single_of_mem t0 (Finset.mem_range.2 ht)]
  · refine Finset.sum_congr rfl fun k _ => ?_
    rw [Finset.sum_eq_single_of_mem nu0 (Finset.mem_range.2 hnu)]
    · split
      · rfl
      · rw [Finset.sum_eq_single_of_mem s0 (Finset.mem_range.2 hs)]
        · simp
        · intro s _ hne; simp [Ne.symm hne]
    · intro nu _ hne; simp [Ne.symm hne]
  · intro t _ hne
    refine Finset.sum_eq_zero fun k _ => Finset.sum_eq_zero fun nu _ => ?_
    simp [Ne.symm hne]

/-- The predicted visibility of one direction. -/
def pred (ant1 ant2 : Nat → Nat) (jones : Arr5 ℂ) (model : Nat → Nat → Nat → Nat → ℂ)
    (t row nu s c : Nat) : ℂ :=
  jones t (ant1 row) nu s c * model row nu s c * (starRingEnd ℂ) (jones t (ant2 row) nu s c)

variable {ant1 ant2 : Nat → Nat} {jones : Arr5 ℂ} {model : Nat → Nat → Nat → Nat → ℂ}
  {residual : Nat → Nat → Nat → ℂ}

theorem jac_re (z : ℂ) (sgn : ℂ) (h : normSq sgn = 1) (a b d : ℂ) (hz : z = a * b * (starRingEnd ℂ) d) :
    ((starRingEnd ℂ) (sgn * a * b * (starRingEnd ℂ) d) * (sgn * a * b * (starRingEnd ℂ) d)).re = normSq z := by
  have : sgn * a * b * (starRingEnd ℂ) d = sgn * z := by rw [hz]; ring
  rw [this, mul_comm, mul_conj, ofReal_re, normSq_mul, h, one_mul]

/-- What one body adds to an entry of `jhj`. -/
def gJhj (ant1 ant2 : Nat → Nat) (jones : Arr5 ℂ) (model : Nat → Nat → Nat → Nat → ℂ)
    (t' a nu' s' c t row nu s : Nat) : ℝ :=
  if t' = t ∧ nu' = nu ∧ s' = s then
    ((if ant1 row = a then 1 else 0) + (if ant2 row = a then 1 else 0)) *
      normSq (pred ant1 ant2 jones model t' row nu' s' c) else 0

/-- What one body adds to an entry of `jhr`. -/
def gJhr (ant1 ant2 : Nat → Nat) (jones : Arr5 ℂ) (residual : Nat → Nat → Nat → ℂ)
    (model : Nat → Nat → Nat → Nat → ℂ) (t' a nu' s' c t row nu s : Nat) : ℂ :=
  if t' = t ∧ nu' = nu ∧ s' = s then
    (starRingEnd ℂ) (((if ant1 row = a then I else 0) - (if ant2 row = a then I else 0)) *
      pred ant1 ant2 jones model t' row nu' s' c) * residual row nu' c else 0

theorem bodyJhj_apply (t row nu s : Nat) (jhj : Arr5 ℝ) (t' a nu' s' c : Nat) :
    bodyJhj ant1 ant2 jones model t row nu s jhj t' a nu' s' c =
      jhj t' a nu' s' c + gJhj ant1 ant2 jones model t' a nu' s' c t row nu s := by
  unfold bodyJhj gJhj jacobian
  simp only [addCell_apply]
  rw [jac_re (pred ant1 ant2 jones model t row nu s c) I (by simp) _ _ _ rfl,
    jac_re (pred ant1 ant2 jones model t row nu s c) (-I) (by simp) _ _ _ rfl, add_assoc]
  congr 1
  by_cases h : t' = t ∧ nu' = nu ∧ s' = s
  · obtain ⟨rfl, rfl, rfl⟩ := h
    simp only [true_and, and_true, eq_comm (a := a), if_true]
    split_ifs <;> ring
  · rw [if_neg h]
    have h1 : ∀ p, ¬ (t' = t ∧ a = p ∧ nu' = nu ∧ s' = s) := fun p h' => h ⟨h'.1, h'.2.2⟩
    rw [if_neg (h1 _), if_neg (h1 _), add_zero]

theorem bodyJhr_apply (t row nu s : Nat) (jhr : Arr5 ℂ) (t' a nu' s' c : Nat) :
    bodyJhr ant1 ant2 jones residual model t row nu s jhr t' a nu' s' c =
      jhr t' a nu' s' c + gJhr ant1 ant2 jones residual model t' a nu' s' c t row nu s := by
  unfold bodyJhr gJhr jacobian pred
  simp only [addCell_apply]
  rw [add_assoc]
  congr 1
  by_cases h : t' = t ∧ nu' = nu ∧ s' = s
  · obtain ⟨rfl, rfl, rfl⟩ := h
    simp only [true_and, and_true, eq_comm (a := a), if_true]
    split_ifs <;> simp only [map_mul, map_neg, map_sub, map_zero, conj_I] <;> ring
  · rw [if_neg h]
    have h1 : ∀ p, ¬ (t' = t ∧ a = p ∧ nu' = nu ∧ s' = s) := fun p h' => h ⟨h'.1, h'.2.2⟩
    rw [if_neg (h1 _), if_neg (h1 _), add_zero]

theorem bodyBoth_eq (t row nu s : Nat) (st : Arr5 ℝ × Arr5 ℂ) :
    bodyBoth ant1 ant2 jones residual model t row nu s st =
      (bodyJhj ant1 ant2 jones model t row nu s st.1,
       bodyJhr ant1 ant2 jones residual model t row nu s st.2) := rfl

theorem nest_pair {σ τ : Type*} {ntim : Nat} {lo cnt : Nat → Nat} {nchan ndir : Nat}
    {anyFlag : Nat → Nat → Bool} {f : Nat → Nat → Nat → Nat → σ → σ} {g : Nat → Nat → Nat → Nat → τ → τ}
    {h : Nat → Nat → Nat → Nat → σ × τ → σ × τ}
    (hh : ∀ t row nu s st, h t row nu s st = (f t row nu s st.1, g t row nu s st.2)) (a : σ) (b : τ) :
    nest ntim lo cnt nchan ndir anyFlag h (a, b) =
      (nest ntim lo cnt nchan ndir anyFlag f a, nest ntim lo cnt nchan ndir anyFlag g b) := by
  unfold nest
  have loop : ∀ (n : Nat) (H : Nat → σ × τ → σ × τ) (F : Nat → σ → σ) (G : Nat → τ → τ),
      (∀ i a b, H i (a, b) = (F i a, G i b)) → ∀ a b,
      forRange n (a, b) H = (forRange n a F, forRange n b G) := by
    intro n H F G hH a b
    induction n with
    | zero => rfl
    | succ n ih => rw [forRange_succ, forRange_succ, forRange_succ, ih, hH]
  refine loop _ _ _ _ (fun t a b => ?_) a b
  refine loop _ _ _ _ (fun k a b => ?_) a b
  refine loop _ _ _ _ (fun nu a b => ?_) a b
  split
  · rfl
  · exact loop _ _ _ _ (fun s a b => hh _ _ _ _ _) a b

end Verif.Calibration
