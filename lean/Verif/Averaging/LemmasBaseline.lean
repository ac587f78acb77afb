/-
Invariant of the per-baseline binning loop of `row_mapper`.
-/
import Verif.Averaging.Model
import Mathlib.Algebra.BigOperators.Intervals
import Mathlib.Algebra.BigOperators.Field
import Mathlib.Algebra.Order.BigOperators.Group.Finset
import Mathlib.Tactic.Linarith
import Mathlib.Tactic.Ring

set_option autoImplicit false

namespace Verif.Averaging

open Function Finset

/-- Sum of `g` over the time indices below `T` that were put in bin `b`. -/
def acc {M : Type*} [AddCommMonoid M] (lk : Nat → Option Nat) (T : Nat) (g : Nat → M) (b : Nat) : M :=
  ∑ t ∈ range T, if lk t = some b then g t else 0

theorem acc_update {M : Type*} [AddCommMonoid M] (lk : Nat → Option Nat) (T : Nat) (g : Nat → M)
    (b c : Nat) :
    acc (update lk T (some c)) (T + 1) g b = acc lk T g b + if c = b then g T else 0 := by
  unfold acc
  rw [sum_range_succ]
  congr 1
  · apply sum_congr rfl
    intro t ht
    have : t ≠ T := by have := mem_range.1 ht; omega
    simp [this]
  · simp

theorem acc_succ_none {M : Type*} [AddCommMonoid M] (lk : Nat → Option Nat) (T : Nat) (g : Nat → M)
    (b : Nat) (h : lk T = none) : acc lk (T + 1) g b = acc lk T g b := by
  unfold acc
  rw [sum_range_succ, h]; simp

theorem acc_eq_zero {M : Type*} [AddCommMonoid M] (lk : Nat → Option Nat) (T : Nat) (g : Nat → M)
    (b : Nat) (h : ∀ t < T, lk t ≠ some b) : acc lk T g b = 0 := by
  unfold acc
  apply sum_eq_zero
  intro t ht
  simp [h t (mem_range.1 ht)]

/-- Value of a row column at a time index, 0 where the row is missing. -/
def colAt {M : Type*} [Zero M] (rowOf : Nat → Option Nat) (f : Nat → M) (t : Nat) : M :=
  (rowOf t).elim 0 f

/-- Number of samples put in bin `b`. -/
abbrev binN (lk : Nat → Option Nat) (T b : Nat) : Nat := acc lk T (fun _ => 1) b

/-- Number of flagged samples put in bin `b`. -/
abbrev binF (rowOf : Nat → Option Nat) (flagged : Nat → Bool) (lk : Nat → Option Nat) (T b : Nat) : Nat :=
  acc lk T (colAt rowOf fun r => if flagged r then 1 else 0) b

structure BlInv (time interval : Nat → ℚ) (flagged : Nat → Bool) (rowOf : Nat → Option Nat)
    (T : Nat) (s : BlState) : Prop where
  dom : ∀ t, s.binLookup t ≠ none ↔ t < T ∧ rowOf t ≠ none
  bound : ∀ t b, s.binLookup t = some b → b ≤ s.tbin
  cnt : binN s.binLookup T s.tbin = s.binCount
  fcnt : binF rowOf flagged s.binLookup T s.tbin = s.binFlagCount
  closedPos : ∀ b < s.tbin, 0 < binN s.binLookup T b
  closedTime : ∀ b < s.tbin,
    s.timeLookup b = acc s.binLookup T (colAt rowOf time) b / binN s.binLookup T b
  closedFlag : ∀ b < s.tbin, s.binFlagged b =
    decide (binN s.binLookup T b = binF rowOf flagged s.binLookup T b)
  curTime : s.timeLookup s.tbin = acc s.binLookup T (colAt rowOf time) s.tbin
  nextTime : ∀ b, s.tbin < b → s.timeLookup b = 0
  int : ∀ b, s.intervalLookup b = acc s.binLookup T (colAt rowOf interval) b
  fresh : s.binCount = 0 → s.tbin = 0
  room : s.tbin + (if s.binCount > 0 then 1 else 0) ≤ T

theorem blInv_init (time interval : Nat → ℚ) (flagged : Nat → Bool) (rowOf : Nat → Option Nat) :
    BlInv time interval flagged rowOf 0 {} := by
  constructor <;> simp [acc]

theorem acc_above {M : Type*} [AddCommMonoid M] {time interval : Nat → ℚ} {flagged : Nat → Bool}
    {rowOf : Nat → Option Nat} {T : Nat} {s : BlState} (h : BlInv time interval flagged rowOf T s)
    (g : Nat → M) {b : Nat} (hb : s.tbin < b) : acc s.binLookup T g b = 0 := by
  apply acc_eq_zero
  intro t _ ht
  have := h.bound t b ht
  omega

/-- The state after `openBin`: the sample about to be added goes in bin `s'.tbin`. -/
theorem blStep_inv {time interval : Nat → ℚ} {flagged : Nat → Bool} {secs sentinel : ℚ}
    {rowOf : Nat → Option Nat} {T : Nat} {s : BlState}
    (h : BlInv time interval flagged rowOf T s) :
    BlInv time interval flagged rowOf (T + 1)
      (blStep time interval flagged secs sentinel rowOf T s) := by
  have hT : s.binLookup T = none := by
    by_contra hc
    have := (h.dom T).1 hc
    omega
  unfold blStep
  cases hr : rowOf T with
  | none =>
    simp only
    constructor
    · intro t
      rw [h.dom t]
      constructor
      · rintro ⟨a, b⟩; exact ⟨by omega, b⟩
      · rintro ⟨a, b⟩
        refine ⟨?_, b⟩
        rcases Nat.lt_succ_iff_lt_or_eq.1 a with c | c
        · exact c
        · subst c; exact absurd hr b
    · exact h.bound
    · rw [binN, acc_succ_none _ _ _ _ hT]; exact h.cnt
    · rw [binF, acc_succ_none _ _ _ _ hT]; exact h.fcnt
    · intro b hb; rw [binN, acc_succ_none _ _ _ _ hT]; exact h.closedPos b hb
    · intro b hb
      rw [binN, acc_succ_none _ _ _ _ hT, acc_succ_none _ _ _ _ hT]; exact h.closedTime b hb
    · intro b hb
      rw [binN, binF, acc_succ_none _ _ _ _ hT, acc_succ_none _ _ _ _ hT]; exact h.closedFlag b hb
    · rw [acc_succ_none _ _ _ _ hT]; exact h.curTime
    · exact h.nextTime
    · intro b; rw [acc_succ_none _ _ _ _ hT]; exact h.int b
    · exact h.fresh
    · have := h.room; omega
  | some r =>
    simp only
    have hdom : ∀ c t, (update s.binLookup T (some c)) t ≠ none ↔ t < T + 1 ∧ rowOf t ≠ none := by
      intro c t
      by_cases ht : t = T
      · subst ht; simp [hr]
      · rw [update_of_ne ht, h.dom t]
        constructor
        · rintro ⟨a, b⟩; exact ⟨by omega, b⟩
        · rintro ⟨a, b⟩; exact ⟨by omega, b⟩
    have hcol : ∀ {M : Type} [Zero M] (f : Nat → M), colAt rowOf f T = f r := by
      intro M _ f; simp [colAt, hr]
    -- the three cases of openBin
    by_cases h0 : s.binCount = 0
    · have ht0 : s.tbin = 0 := h.fresh h0
      simp only [openBin, if_pos h0, addSample]
      constructor
      · exact hdom _
      · intro t b hb
        by_cases ht : t = T
        · subst ht; simp at hb; simp; omega
        · simp only [update_of_ne ht] at hb; exact h.bound t b hb
      · simp only; rw [binN, acc_update, if_pos rfl]; exact congrArg (· + 1) h.cnt
      · simp only; rw [binF, acc_update, if_pos rfl, hcol]
        have := h.fcnt; rw [binF] at this; rw [this]; split <;> simp
      · intro b hb; simp only [ht0] at hb; omega
      · intro b hb; simp only [ht0] at hb; omega
      · intro b hb; simp only [ht0] at hb; omega
      · simp only; rw [acc_update, if_pos rfl, hcol, update_self, h.curTime]
      · intro b hb
        simp only at hb ⊢
        rw [update_of_ne (by omega)]; exact h.nextTime b hb
      · intro b
        simp only
        rw [acc_update]
        by_cases hb : b = s.tbin
        · subst hb; rw [update_self, if_pos rfl, hcol, h.int]
        · rw [update_of_ne hb, if_neg (Ne.symm hb), h.int, add_zero]
      · simp
      · simp [ht0]
    · have hpos : s.binCount > 0 := Nat.pos_of_ne_zero h0
      have hroom := h.room
      rw [if_pos hpos] at hroom
      by_cases hf : time r + interval r * (1 / 2) - s.binLow > secs
      · simp only [openBin, if_neg h0, if_pos hf, if_pos hpos, addSample]
        constructor
        · exact hdom _
        · intro t b hb
          simp only at hb ⊢
          by_cases ht : t = T
          · subst ht; simp at hb; omega
          · simp only [update_of_ne ht] at hb; have := h.bound t b hb; omega
        · simp only; rw [binN, acc_update, if_pos rfl, acc_above h _ (Nat.lt_succ_self _)]
        · simp only; rw [binF, acc_update, if_pos rfl, hcol, acc_above h _ (Nat.lt_succ_self _)]
          simp
        · intro b hb
          simp only at hb ⊢
          rw [binN, acc_update]
          rcases Nat.lt_succ_iff_lt_or_eq.1 hb with c | c
          · have := h.closedPos b c; simp only [binN] at this; omega
          · have := h.cnt; rw [c]; simp only [binN] at this; omega
        · intro b hb
          simp only at hb ⊢
          rw [binN, acc_update, acc_update, if_neg (by omega), if_neg (by omega), add_zero, add_zero,
            update_of_ne (by omega)]
          by_cases c : b = s.tbin
          · subst c
            rw [update_self, h.curTime, ← h.cnt]
          · rw [update_of_ne c]; exact h.closedTime b (by omega)
        · intro b hb
          simp only at hb ⊢
          rw [binN, binF, acc_update, acc_update, if_neg (by omega), if_neg (by omega), add_zero,
            add_zero]
          by_cases c : b = s.tbin
          · subst c
            rw [update_self, ← h.cnt, ← h.fcnt]
          · rw [update_of_ne c]; exact h.closedFlag b (by omega)
        · simp only
          rw [acc_update, if_pos rfl, hcol, update_self, acc_above h _ (Nat.lt_succ_self _),
            update_of_ne (by omega), h.nextTime _ (Nat.lt_succ_self _)]
        · intro b hb
          simp only at hb ⊢
          rw [update_of_ne (by omega), update_of_ne (by omega)]; exact h.nextTime b (by omega)
        · intro b
          simp only
          rw [acc_update]
          by_cases hb : b = s.tbin + 1
          · subst hb; rw [update_self, if_pos rfl, hcol, h.int]
          · rw [update_of_ne hb, if_neg (Ne.symm hb), h.int, add_zero]
        · simp
        · simp; omega
      · simp only [openBin, if_neg h0, if_neg hf, addSample]
        constructor
        · exact hdom _
        · intro t b hb
          simp only at hb ⊢
          by_cases ht : t = T
          · subst ht; simp at hb; omega
          · simp only [update_of_ne ht] at hb; exact h.bound t b hb
        · simp only; rw [binN, acc_update, if_pos rfl]; exact congrArg (· + 1) h.cnt
        · simp only; rw [binF, acc_update, if_pos rfl, hcol]
          have := h.fcnt; rw [binF] at this; rw [this]; split <;> simp
        · intro b hb
          simp only at hb ⊢
          rw [binN, acc_update]
          have := h.closedPos b hb; simp only [binN] at this; omega
        · intro b hb
          simp only at hb ⊢
          rw [binN, acc_update, acc_update, if_neg (by omega), if_neg (by omega), add_zero, add_zero,
            update_of_ne (by omega)]
          exact h.closedTime b hb
        · intro b hb
          simp only at hb ⊢
          rw [binN, binF, acc_update, acc_update, if_neg (by omega), if_neg (by omega), add_zero,
            add_zero]
          exact h.closedFlag b hb
        · simp only; rw [acc_update, if_pos rfl, hcol, update_self, h.curTime]
        · intro b hb
          simp only at hb ⊢
          rw [update_of_ne (by omega)]; exact h.nextTime b hb
        · intro b
          simp only
          rw [acc_update]
          by_cases hb : b = s.tbin
          · subst hb; rw [update_self, if_pos rfl, hcol, h.int]
          · rw [update_of_ne hb, if_neg (Ne.symm hb), h.int, add_zero]
        · simp
        · simp; omega

/-- What one baseline's loop produces. -/
structure BlOK (time interval : Nat → ℚ) (flagged : Nat → Bool) (sentinel : ℚ) (ntime : Nat)
    (rowOf : Nat → Option Nat) (s : BlState) : Prop where
  dom : ∀ t, s.binLookup t ≠ none ↔ t < ntime ∧ rowOf t ≠ none
  bound : ∀ t b, s.binLookup t = some b → b < s.tbin
  pos : ∀ b < s.tbin, 0 < binN s.binLookup ntime b
  time_ok : ∀ b < s.tbin, s.timeLookup b =
    acc s.binLookup ntime (colAt rowOf time) b / binN s.binLookup ntime b
  int_ok : ∀ b, s.intervalLookup b = acc s.binLookup ntime (colAt rowOf interval) b
  flag_ok : ∀ b < s.tbin, s.binFlagged b =
    decide (binN s.binLookup ntime b = binF rowOf flagged s.binLookup ntime b)
  pad : ∀ b, s.tbin ≤ b → b < ntime → s.timeLookup b = sentinel
  room : s.tbin ≤ ntime

theorem blLoop_ok (time interval : Nat → ℚ) (flagged : Nat → Bool) (secs sentinel : ℚ) (ntime : Nat)
    (rowOf : Nat → Option Nat) :
    BlOK time interval flagged sentinel ntime rowOf
      (blLoop time interval flagged secs sentinel ntime rowOf) := by
  have h : BlInv time interval flagged rowOf ntime
      (forRange ntime {} (blStep time interval flagged secs sentinel rowOf)) :=
    forRange_inv (P := fun T s => BlInv time interval flagged rowOf T s)
      (blInv_init time interval flagged rowOf) (fun i s _ hs => blStep_inv hs)
  unfold blLoop
  revert h
  generalize forRange ntime _ _ = s
  intro h
  unfold blFinish
  have hroom := h.room
  by_cases hpos : s.binCount > 0
  · rw [if_pos hpos] at hroom
    simp only [if_pos hpos]
    constructor
    · exact h.dom
    · intro t b hb; have := h.bound t b hb; simp only; omega
    · intro b hb
      simp only at hb ⊢
      rcases Nat.lt_succ_iff_lt_or_eq.1 hb with c | c
      · exact h.closedPos b c
      · subst c; rw [h.cnt]; exact hpos
    · intro b hb
      simp only at hb ⊢
      rw [if_neg (by omega)]
      by_cases c : b = s.tbin
      · subst c; rw [update_self, h.curTime, h.cnt]
      · rw [update_of_ne c]; exact h.closedTime b (by omega)
    · exact h.int
    · intro b hb
      simp only at hb ⊢
      rw [if_neg (by omega)]
      by_cases c : b = s.tbin
      · subst c; rw [update_self, h.cnt, h.fcnt]
      · rw [update_of_ne c]; exact h.closedFlag b (by omega)
    · intro b h1 h2
      simp only at h1 h2 ⊢
      rw [if_pos ⟨h1, h2⟩]
    · simpa using hroom
  · have h0 : s.binCount = 0 := by omega
    have ht0 := h.fresh h0
    rw [if_neg hpos] at hroom
    simp only [if_neg hpos]
    have hnone : ∀ t b, s.binLookup t = some b → False := by
      intro t b hb
      have h1 := h.bound t b hb
      have h2 := (h.dom t).1 (by rw [hb]; simp)
      have hb0 : b = s.tbin := by omega
      subst hb0
      have h3 := h.cnt
      rw [h0, binN, acc, Finset.sum_eq_zero_iff] at h3
      have := h3 t (mem_range.2 h2.1)
      simp [hb] at this
    constructor
    · exact h.dom
    · intro t b hb; exact (hnone t b hb).elim
    · intro b hb; simp only [ht0] at hb; omega
    · intro b hb; simp only [ht0] at hb; omega
    · exact h.int
    · intro b hb; simp only [ht0] at hb; omega
    · intro b h1 h2; simp only at h1 h2 ⊢; rw [if_pos ⟨h1, h2⟩]
    · simp only; omega

end Verif.Averaging
