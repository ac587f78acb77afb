/-
Bins of a baseline are numbered in the order of time.
-/
import Verif.Averaging.LemmasRowMap

set_option autoImplicit false

namespace Verif.Averaging

open Function

private theorem openBin_keep {secs sentinel t half : ℚ} {s : BlState} :
    (openBin secs sentinel t half s).binLookup = s.binLookup ∧ s.tbin ≤ (openBin secs sentinel t half s).tbin := by
  unfold openBin
  split
  · exact ⟨rfl, le_rfl⟩
  · split
    · simp only
      split
      · exact ⟨rfl, Nat.le_succ _⟩
      · exact ⟨rfl, Nat.le_succ _⟩
    · exact ⟨rfl, le_rfl⟩

/-- Bins increase with the index of the time. -/
theorem blLoop_mono {time interval : Nat → ℚ} {flagged : Nat → Bool} {secs sentinel : ℚ} {ntime : Nat}
    {rowOf : Nat → Option Nat} {t t' b b' : Nat} (htt : t ≤ t')
    (h : (blLoop time interval flagged secs sentinel ntime rowOf).binLookup t = some b)
    (h' : (blLoop time interval flagged secs sentinel ntime rowOf).binLookup t' = some b') : b ≤ b' := by
  have hl : (blLoop time interval flagged secs sentinel ntime rowOf).binLookup =
      (forRange ntime {} (blStep time interval flagged secs sentinel rowOf)).binLookup := by
    unfold blLoop blFinish
    simp only; split <;> rfl
  rw [hl] at h h'
  have inv := forRange_inv (n := ntime) (init := ({} : BlState))
    (f := blStep time interval flagged secs sentinel rowOf)
    (P := fun T s => (∀ t b, s.binLookup t = some b → t < T ∧ b ≤ s.tbin) ∧
      ∀ t t' b b', t ≤ t' → s.binLookup t = some b → s.binLookup t' = some b' → b ≤ b')
    ⟨fun t b hb => (nomatch hb), fun t t' b b' _ hb => (nomatch hb)⟩
    (by
      rintro T s _ ⟨h1, h2⟩
      unfold blStep
      cases rowOf T with
      | none => exact ⟨fun t b hb => ⟨(h1 t b hb).1.trans (Nat.lt_succ_self _), (h1 t b hb).2⟩, h2⟩
      | some r =>
        obtain ⟨e1, e2⟩ := openBin_keep (secs := secs) (sentinel := sentinel) (t := time r)
          (half := interval r * (1 / 2)) (s := s)
        simp only [addSample, e1]
        constructor
        · intro t b hb
          by_cases ht : t = T
          · subst ht
            rw [update_self] at hb
            cases hb
            exact ⟨Nat.lt_succ_self _, le_rfl⟩
          · rw [update_of_ne ht] at hb
            exact ⟨(h1 t b hb).1.trans (Nat.lt_succ_self _), (h1 t b hb).2.trans e2⟩
        · intro t t' b b' htt hb hb'
          by_cases ht' : t' = T
          · subst ht'
            rw [update_self] at hb'
            cases hb'
            by_cases ht : t = t'
            · subst ht
              rw [update_self] at hb
              cases hb
              exact le_rfl
            · rw [update_of_ne ht] at hb
              exact (h1 t b hb).2.trans e2
          · rw [update_of_ne ht'] at hb'
            have := (h1 t' b' hb').1
            rw [update_of_ne (by omega)] at hb
            exact h2 t t' b b' htt hb hb')
  exact inv.2 t t' b b' htt h h'

/-- The mean over a bin is smaller than that over another if all its values are. -/
theorem mean_lt {lk : Nat → Option Nat} {T b b' : Nat} {g : Nat → ℚ}
    (h : ∀ t < T, ∀ t' < T, lk t = some b → lk t' = some b' → g t < g t')
    (hb : 0 < binN lk T b) (hb' : 0 < binN lk T b') :
    acc lk T g b / binN lk T b < acc lk T g b' / binN lk T b' := by
  have h1 := acc_le (lk := lk) (T := T) (b := b') (g := fun t => -g t) (c := -(acc lk T g b / binN lk T b))
    (by
      intro t' ht' e'
      rw [neg_lt_neg_iff]
      exact acc_le (fun t ht e => h t ht t' ht' e e') hb) hb'
  have e : acc lk T (fun t => -g t) b' = -acc lk T g b' := by
    unfold acc
    rw [← Finset.sum_neg_distrib]
    refine Finset.sum_congr rfl fun t _ => ?_
    split
    · rfl
    · simp
  rw [e, neg_div, neg_lt_neg_iff] at h1
  exact h1

end Verif.Averaging
