/-
Lemmas on tables of which the rows are in another order and the times in another unit.
-/
import Verif.Averaging.LemmasRowMap2
import Mathlib.Data.Set.Function
import Mathlib.Order.Interval.Set.Defs
import Mathlib.Tactic.Linarith
import Mathlib.Tactic.FieldSimp

set_option autoImplicit false

namespace Verif.Averaging

open Function

/-- Two numberings without gaps that order the rows in the same way are the same. -/
theorem numbering_unique {n a b : Nat} {f g : Nat → Nat} (hf : ∀ r < n, f r < a) (hg : ∀ r < n, g r < b)
    (of : ∀ o < a, ∃ r < n, f r = o) (og : ∀ o < b, ∃ r < n, g r = o)
    (h : ∀ r < n, ∀ q < n, f r < f q ↔ g r < g q) : a = b ∧ ∀ r < n, f r = g r := by
  have key : ∀ k, ∀ r < n, f r = k → g r = k := by
    intro k
    induction k using Nat.strong_induction_on with
    | _ k ih =>
      intro r hr hk
      rcases Nat.lt_trichotomy (g r) k with hlt | heq | hgt
      · obtain ⟨q, hq, hfq⟩ := of (g r) (by have := hf r hr; omega)
        have h1 := ih (g r) hlt q hq hfq
        have h2 := (h q hq r hr).1 (by omega)
        omega
      · exact heq
      · obtain ⟨q, hq, hgq⟩ := og k (by have := hg r hr; omega)
        have h1 := (h q hq r hr).2 (by omega)
        have h2 := ih (f q) (by omega) q hq rfl
        omega
  have hall : ∀ r < n, f r = g r := fun r hr => (key (f r) r hr rfl).symm
  refine ⟨?_, hall⟩
  rcases Nat.lt_trichotomy a b with hlt | heq | hgt
  · obtain ⟨q, hq, hgq⟩ := og a hlt
    have := hf q hq
    rw [hall q hq] at this
    omega
  · exact heq
  · obtain ⟨q, hq, hfq⟩ := of b hgt
    have := hg q hq
    rw [← hall q hq] at this
    omega

/-- What two states have in common when the rows are in another order and the times in another unit. -/
private structure Sim (a c : ℚ) (s' s : BlState) : Prop where
  tbin : s'.tbin = s.tbin
  binCount : s'.binCount = s.binCount
  binLow : s.binCount ≠ 0 → s'.binLow = a * s.binLow + c
  binLookup : s'.binLookup = s.binLookup

private theorem sim_open {a c : ℚ} (ha : 0 < a) {secs sentinel sentinel' t half : ℚ} {s' s : BlState}
    (h : Sim a c s' s) :
    (openBin (a * secs) sentinel' (a * t + c) (a * half) s').tbin = (openBin secs sentinel t half s).tbin ∧
    (openBin (a * secs) sentinel' (a * t + c) (a * half) s').binCount = (openBin secs sentinel t half s).binCount ∧
    (openBin (a * secs) sentinel' (a * t + c) (a * half) s').binLow = a * (openBin secs sentinel t half s).binLow + c ∧
    (openBin (a * secs) sentinel' (a * t + c) (a * half) s').binLookup = (openBin secs sentinel t half s).binLookup := by
  obtain ⟨h1, h2, h3, h4⟩ := h
  unfold openBin
  by_cases h0 : s.binCount = 0
  · rw [if_pos h0, if_pos (h2.trans h0)]
    exact ⟨h1, h2, by simp only; ring, h4⟩
  · have h0' : s'.binCount ≠ 0 := by rw [h2]; exact h0
    rw [if_neg h0, if_neg h0']
    have e : a * t + c + a * half - s'.binLow > a * secs ↔ t + half - s.binLow > secs := by
      rw [h3 h0]
      have : a * t + c + a * half - (a * s.binLow + c) = a * (t + half - s.binLow) := by ring
      rw [this]
      exact mul_lt_mul_iff_right₀ ha
    by_cases hg : t + half - s.binLow > secs
    · rw [if_pos hg, if_pos (e.2 hg)]
      have hp : s.binCount > 0 := Nat.pos_of_ne_zero h0
      have hp' : s'.binCount > 0 := Nat.pos_of_ne_zero h0'
      simp only [if_pos hp, if_pos hp']
      exact ⟨by rw [h1], trivial, h3 h0, h4⟩
    · rw [if_neg hg, if_neg fun hc => hg (e.1 hc)]
      exact ⟨h1, h2, h3 h0, h4⟩

/-- The bins of a baseline do not depend on the numbers of its rows and on the unit and origin of time. -/
theorem blLoop_moved {a c : ℚ} (ha : 0 < a) {σ : Nat → Nat} {time interval : Nat → ℚ} {flagged flagged' : Nat → Bool}
    {secs sentinel sentinel' : ℚ} {ntime : Nat} {rowOf rowOf' : Nat → Option Nat}
    (h : ∀ t < ntime, rowOf t = (rowOf' t).map σ) :
    (blLoop (fun r => a * time (σ r) + c) (fun r => a * interval (σ r)) flagged' (a * secs) sentinel' ntime
      rowOf').binLookup = (blLoop time interval flagged secs sentinel ntime rowOf).binLookup := by
  have hl : ∀ (time interval : Nat → ℚ) (flagged : Nat → Bool) (secs sentinel : ℚ) (rowOf : Nat → Option Nat),
      (blLoop time interval flagged secs sentinel ntime rowOf).binLookup =
      (forRange ntime {} (blStep time interval flagged secs sentinel rowOf)).binLookup := by
    intros
    unfold blLoop blFinish
    simp only; split <;> rfl
  rw [hl, hl]
  suffices H : ∀ T ≤ ntime, Sim a c
      (forRange T {} (blStep (fun r => a * time (σ r) + c) (fun r => a * interval (σ r)) flagged' (a * secs)
        sentinel' rowOf'))
      (forRange T {} (blStep time interval flagged secs sentinel rowOf)) from (H ntime le_rfl).binLookup
  intro T
  induction T with
  | zero => exact fun _ => ⟨rfl, rfl, fun h => absurd rfl h, rfl⟩
  | succ T ih =>
    intro hT
    have ih := ih (by omega)
    rw [forRange_succ, forRange_succ]
    revert ih
    generalize forRange T _ _ = s'
    generalize forRange T _ _ = s
    intro ih
    have hr := h T (by omega)
    unfold blStep
    cases hp : rowOf' T with
    | none =>
      rw [hp] at hr
      rw [hr]
      exact ih
    | some p =>
      rw [hp] at hr
      rw [hr]
      simp only [Option.map_some]
      have e : a * interval (σ p) * (1 / 2) = a * (interval (σ p) * (1 / 2)) := by ring
      rw [e]
      obtain ⟨h1, h2, h3, h4⟩ := sim_open ha (secs := secs) (sentinel := sentinel) (sentinel' := sentinel')
        (t := time (σ p)) (half := interval (σ p) * (1 / 2)) ih
      exact ⟨h1, by simp only [addSample]; rw [h2], fun _ => h3, by simp only [addSample]; rw [h1, h4]⟩

end Verif.Averaging
