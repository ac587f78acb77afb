/-
`row_mapper`: from the loop invariants to the properties of its output.
-/
import Verif.Averaging.Spec
import Verif.Averaging.LemmasUnique
import Verif.Averaging.LemmasBaseline
import Mathlib.Tactic.Positivity

set_option autoImplicit false

namespace Verif.Averaging

open Function

/-! ### packing -/

theorem unpack32_pack32 {a b : Int} (ha : IsInt32 a) :
    unpack32 (pack32 a b) = (a, b) := by
  unfold unpack32 pack32 IsInt32 at *
  ext
  · simp only; omega
  · simp only; omega

theorem pack32_inj {a b c d : Int} (ha : IsInt32 a) (hc : IsInt32 c) :
    pack32 a b = pack32 c d ↔ a = c ∧ b = d := by
  constructor
  · intro h
    have h1 := unpack32_pack32 (b := b) ha
    rw [h, unpack32_pack32 hc] at h1
    simp at h1
    exact ⟨h1.1.symm, h1.2.symm⟩
  · rintro ⟨rfl, rfl⟩; rfl

/-! ### row_lookup -/

theorem rowLookup_of_inj {n : Nat} {blInv timeInv : Nat → Nat}
    (hinj : ∀ r < n, ∀ q < n, blInv r = blInv q → timeInv r = timeInv q → r = q) :
    ∃ lk, rowLookup n blInv timeInv = .ok lk ∧
      ∀ b t r, lk b t = some r ↔ r < n ∧ blInv r = b ∧ timeInv r = t := by
  unfold rowLookup
  refine forRangeM_ok_inv
    (P := fun i (lk : Nat → Nat → Option Nat) => ∀ b t r, lk b t = some r ↔ r < i ∧ blInv r = b ∧ timeInv r = t) ?_ ?_
  · intro b t r; simp
  · intro i lk hi h
    have hnone : lk (blInv i) (timeInv i) = none := by
      cases hc : lk (blInv i) (timeInv i) with
      | none => rfl
      | some r =>
        obtain ⟨h1, h2, h3⟩ := (h _ _ _).1 hc
        have := hinj r (by omega) i hi h2 h3
        omega
    refine ⟨_, by simp only [hnone]; rfl, ?_⟩
    intro b t r
    by_cases hb : b = blInv i
    · subst hb
      rw [update_self]
      by_cases ht : t = timeInv i
      · subst ht
        rw [update_self]
        constructor
        · intro e; have := Option.some.inj e; subst this; exact ⟨by omega, rfl, rfl⟩
        · rintro ⟨h1, h2, h3⟩; rw [hinj r (by omega) i hi h2 h3]
      · rw [update_of_ne ht, h]
        constructor
        · rintro ⟨h1, h2, h3⟩; exact ⟨by omega, h2, h3⟩
        · rintro ⟨h1, h2, h3⟩
          refine ⟨?_, h2, h3⟩
          by_contra hc
          have : r = i := by omega
          subst this; exact ht h3.symm
    · rw [update_of_ne hb, h]
      constructor
      · rintro ⟨h1, h2, h3⟩; exact ⟨by omega, h2, h3⟩
      · rintro ⟨h1, h2, h3⟩
        refine ⟨?_, h2, h3⟩
        by_contra hc
        have : r = i := by omega
        subst this; exact hb h2.symm

theorem rowLookup_ok_inj {n : Nat} {blInv timeInv : Nat → Nat} {lk : Nat → Nat → Option Nat}
    (h : rowLookup n blInv timeInv = .ok lk) :
    ∀ r < n, ∀ q < n, blInv r = blInv q → timeInv r = timeInv q → r = q := by
  unfold rowLookup at h
  have := forRangeM_of_ok
    (P := fun i (lk : Nat → Nat → Option Nat) => (∀ r < i, lk (blInv r) (timeInv r) ≠ none) ∧
      ∀ r < i, ∀ q < i, blInv r = blInv q → timeInv r = timeInv q → r = q) ?_ ?_ h
  · exact this.2
  · simp
  · rintro i s s' hi ⟨h1, h2⟩ hs
    cases hc : s (blInv i) (timeInv i) with
    | some r => simp [hc] at hs
    | none =>
      simp only [hc, Except.ok.injEq] at hs
      subst hs
      have hne : ∀ r < i, blInv r = blInv i → timeInv r = timeInv i → False := by
        intro r hr e1 e2
        exact h1 r hr (by rw [e1, e2]; exact hc)
      refine ⟨?_, ?_⟩
      · intro r hr
        by_cases hb : blInv r = blInv i
        · rw [hb, update_self]
          by_cases ht : timeInv r = timeInv i
          · rw [ht, update_self]; simp
          · rw [update_of_ne ht, ← hb]
            apply h1
            by_contra hc'
            have : r = i := by omega
            subst this; exact ht rfl
        · rw [update_of_ne hb]
          apply h1
          by_contra hc'
          have : r = i := by omega
          subst this; exact hb rfl
      · intro r hr q hq e1 e2
        rcases Nat.lt_succ_iff_lt_or_eq.1 hr with hr | hr <;>
          rcases Nat.lt_succ_iff_lt_or_eq.1 hq with hq | hq
        · exact h2 r hr q hq e1 e2
        · subst hq; exact (hne r hr e1 e2).elim
        · subst hr; exact (hne q hq e1.symm e2.symm).elim
        · omega

theorem rowLookup_error {n : Nat} {blInv timeInv : Nat → Nat} {e : PyErr}
    (h : rowLookup n blInv timeInv = .error e) : e = .valueError := by
  obtain ⟨i, s, -, hs⟩ := forRangeM_error h
  cases hc : s (blInv i) (timeInv i) with
  | none => simp [hc] at hs
  | some r => simp [hc] at hs; exact hs.symm

/-! ### inverse permutation -/

theorem invPerm_fold_notMem (l : List Nat) (k : Nat) (f : Nat → Nat) (a : Nat) (ha : a ∉ l) :
    ((l.zipIdx k).foldl (fun inv p => update inv p.1 p.2) f) a = f a := by
  induction l generalizing k f with
  | nil => simp
  | cons x l ih =>
    simp only [List.mem_cons, not_or] at ha
    rw [List.zipIdx_cons, List.foldl_cons, ih _ _ ha.2, update_of_ne ha.1]

theorem invPerm_fold (l : List Nat) (k : Nat) (f : Nat → Nat) (hl : l.Nodup) (i : Nat) (a : Nat)
    (hi : l[i]? = some a) :
    ((l.zipIdx k).foldl (fun inv p => update inv p.1 p.2) f) a = k + i := by
  induction l generalizing k f i with
  | nil => simp at hi
  | cons x l ih =>
    rw [List.nodup_cons] at hl
    rw [List.zipIdx_cons, List.foldl_cons]
    cases i with
    | zero =>
      simp at hi; subst hi
      rw [invPerm_fold_notMem _ _ _ _ hl.1]; simp
    | succ i =>
      simp at hi
      rw [ih _ _ hl.2 i hi]; omega

theorem invPerm_getElem {l : List Nat} (hl : l.Nodup) {i a : Nat} (hi : l[i]? = some a) :
    invPerm l a = i := by
  unfold invPerm
  rw [invPerm_fold l 0 _ hl i a hi]; omega

/-! ### sentinel padding moves to the back -/

theorem sorted_prefix {α : Type*} [LinearOrder α] (key : Nat → α) (s : α) (L : List Nat)
    (hL : L.Pairwise (fun i j => key i ≤ key j)) (i a : Nat) (hi : L[i]? = some a) :
    key a < s ↔ i < L.countP (fun k => key k < s) := by
  induction L generalizing i with
  | nil => simp at hi
  | cons x L ih =>
    rw [List.pairwise_cons] at hL
    by_cases hx : key x < s
    · rw [List.countP_cons_of_pos (by simpa using hx)]
      cases i with
      | zero => simp at hi; subst hi; simp [hx]
      | succ i => simp at hi; rw [ih hL.2 i hi]; omega
    · have hall : ∀ y ∈ L, ¬ key y < s := fun y hy hc => hx (lt_of_le_of_lt (hL.1 y hy) hc)
      rw [List.countP_cons_of_neg (by simpa using hx)]
      have h0 : L.countP (fun k => decide (key k < s)) = 0 := by
        rw [List.countP_eq_zero]; intro y hy; simpa using hall y hy
      rw [h0]
      cases i with
      | zero => simp at hi; subst hi; simp [hx]
      | succ i =>
        simp at hi
        have := hall a (List.mem_of_getElem? hi)
        simp [this]

theorem countP_range_lt (n m : Nat) (h : m ≤ n) :
    (List.range n).countP (fun b => decide (b < m)) = m := by
  induction n with
  | zero => simp; omega
  | succ n ih =>
    rw [List.range_succ, List.countP_append]
    by_cases hm : m = n + 1
    · have : (List.range n).countP (fun b => decide (b < m)) = n := by
        have h1 : (List.range n).countP (fun b => decide (b < m)) = (List.range n).length := by
          rw [List.countP_eq_length]
          intro b hb; have := List.mem_range.1 hb; simp; omega
        simpa using h1
      rw [this]; simp; rw [if_pos (by omega)]; omega
    · rw [ih (by omega)]; simp; omega

theorem countP_flat (nbl ntime : Nat) (P : Nat → Nat → Bool) :
    (List.range (nbl * ntime)).countP (fun k => P (k / ntime) (k % ntime)) =
      forRange nbl 0 fun bl acc => acc + (List.range ntime).countP (P bl) := by
  induction nbl with
  | zero => simp
  | succ nbl ih =>
    rw [forRange_succ, ← ih, Nat.succ_mul, List.range_add, List.countP_append]
    congr 1
    rw [List.countP_map]
    apply List.countP_congr
    intro t ht
    have ht := List.mem_range.1 ht
    have h1 : (nbl * ntime + t) / ntime = nbl := by
      rw [Nat.mul_comm, Nat.mul_add_div (by omega), Nat.div_eq_of_lt ht, Nat.add_zero]
    have h2 : (nbl * ntime + t) % ntime = t := by
      rw [Nat.mul_comm, Nat.mul_add_mod, Nat.mod_eq_of_lt ht]
    simp [h1, h2]

theorem forRange_add_congr (n : Nat) (f g : Nat → Nat) (h : ∀ i < n, f i = g i) :
    forRange n 0 (fun i acc => acc + f i) = forRange n 0 (fun i acc => acc + g i) := by
  induction n with
  | zero => rfl
  | succ n ih =>
    rw [forRange_succ, forRange_succ, ih (fun i hi => h i (by omega)), h n (by omega)]

/-! ### averages -/

theorem acc_le {lk : Nat → Option Nat} {T b : Nat} {g : Nat → ℚ} {c : ℚ}
    (h : ∀ t < T, lk t = some b → g t < c) (hpos : 0 < binN lk T b) :
    acc lk T g b / binN lk T b < c := by
  have hp : (0 : ℚ) < binN lk T b := by exact_mod_cast hpos
  rw [div_lt_iff₀ hp]
  have e : (c : ℚ) * (binN lk T b : ℚ) = ∑ t ∈ Finset.range T, if lk t = some b then c else 0 := by
    unfold binN acc
    push_cast
    rw [Finset.mul_sum]
    apply Finset.sum_congr rfl
    intro t _
    split <;> simp
  rw [e]
  unfold acc
  apply Finset.sum_lt_sum
  · intro t ht
    split
    · exact (h t (Finset.mem_range.1 ht) ‹_›).le
    · exact le_rfl
  · have : ∃ t ∈ Finset.range T, (if lk t = some b then 1 else 0 : Nat) ≠ 0 := by
      by_contra hc
      push Not at hc
      have : binN lk T b = 0 := Finset.sum_eq_zero hc
      omega
    obtain ⟨t, ht, hne⟩ := this
    have hl : lk t = some b := by by_contra hc; simp [hc] at hne
    exact ⟨t, ht, by simp only [hl, if_true]; exact h t (Finset.mem_range.1 ht) hl⟩

end Verif.Averaging
