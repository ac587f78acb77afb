/-
Lemmas about `channel_mapper` and concrete evaluation of `row_mapper`.
-/
import Verif.Averaging.LemmasSpan
import Mathlib.Data.Finset.Card
import Mathlib.Tactic.Ring
import Mathlib.Tactic.Linarith

set_option autoImplicit false

namespace Verif.Averaging

open Function

/-- The channel loop after `n` channels: map, current channel and current count. -/
theorem chan_loop (b : Nat) (hb : 1 ≤ b) (n : Nat) :
    (∀ c < n, (forRange n ((fun _ => 0), 0, 0) (chanStep b)).1 c = c / b) ∧
      (forRange n ((fun _ => 0), 0, 0) (chanStep b)).2.1 = n / b ∧
      (forRange n ((fun _ => 0), 0, 0) (chanStep b)).2.2 = n % b := by
  induction n with
  | zero => simp
  | succ n ih =>
    rw [forRange_succ]
    revert ih
    generalize forRange n ((fun _ => 0), 0, 0) (chanStep b) = s
    rintro ⟨h1, h2, h3⟩
    have hd := Nat.div_add_mod n b
    have hm := Nat.mod_lt n (show 0 < b by omega)
    unfold chanStep
    simp only
    split
    · rename_i he
      rw [h3] at he
      have hn : n + 1 = b * (n / b + 1) := by rw [Nat.mul_add, Nat.mul_one]; omega
      refine ⟨?_, ?_, ?_⟩
      · intro c hc
        simp only [update_apply]
        split
        · rename_i h; subst h; exact h2
        · exact h1 c (by omega)
      · simp only [h2]; conv_rhs => rw [hn]
        rw [Nat.mul_div_cancel_left _ (by omega)]
      · simp only; rw [hn, Nat.mul_mod_right]
    · rename_i he
      rw [h3] at he
      have hlt : n % b + 1 < b := by omega
      have hn : n + 1 = (n % b + 1) + b * (n / b) := by omega
      refine ⟨?_, ?_, ?_⟩
      · intro c hc
        simp only [update_apply]
        split
        · rename_i h; subst h; exact h2
        · exact h1 c (by omega)
      · simp only [h2]; conv_rhs => rw [hn, Nat.add_mul_div_left _ _ (by omega)]
        rw [Nat.div_eq_of_lt hlt, Nat.zero_add]
      · simp only [h3]; conv_rhs => rw [hn, Nat.add_mul_mod_self_left]
        rw [Nat.mod_eq_of_lt hlt]

theorem channelMapper_spec {nchan b : Nat} (hb : 1 ≤ b) :
    (∀ c < nchan, (channelMapper nchan b).1 c = c / b) ∧
      (channelMapper nchan b).2 = (nchan + b - 1) / b := by
  obtain ⟨h1, h2, h3⟩ := chan_loop b hb nchan
  unfold channelMapper
  refine ⟨h1, ?_⟩
  simp only
  have hd := Nat.div_add_mod nchan b
  have hm := Nat.mod_lt nchan (show 0 < b by omega)
  rw [h2, h3]
  split
  · rename_i h
    have e : nchan + b - 1 = (nchan % b - 1) + b * (nchan / b + 1) := by
      rw [Nat.mul_add, Nat.mul_one]
      omega
    rw [e, Nat.add_mul_div_left _ _ (by omega), Nat.div_eq_of_lt (a := nchan % b - 1) (by omega), Nat.zero_add]
  · rename_i h
    have e : nchan + b - 1 = (b - 1) + b * (nchan / b) := by omega
    rw [e, Nat.add_mul_div_left _ _ (by omega), Nat.div_eq_of_lt (a := b - 1) (by omega), Nat.zero_add]

/-- Sorting keys that are already in order. -/
theorem argsort_of_mono {α : Type*} [LE α] [DecidableLE α] (n : Nat) (key : Nat → α)
    (h : ∀ i j, i < j → j < n → key i ≤ key j) : argsort n key = List.range n := by
  unfold argsort
  apply List.mergeSort_of_pairwise
  rw [List.pairwise_iff_getElem]
  intro i j hi hj hij
  simp at hi hj ⊢
  exact h i j hij hj

end Verif.Averaging
