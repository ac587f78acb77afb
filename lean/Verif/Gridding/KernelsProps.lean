/-
C74, C99 and C100: packing, normalisation and detapering functions of gridding kernels.
-/
import Verif.Gridding.Kernels
import Mathlib.Tactic.Ring
import Mathlib.Tactic.Linarith
import Mathlib.Tactic.FieldSimp
import Mathlib.Tactic.Positivity
import Mathlib.Tactic.NormNum
import Mathlib.Analysis.SpecialFunctions.Complex.CircleAddChar

set_option autoImplicit false

namespace Verif.Gridding

variable {α : Type*}

/-! ## Specification -/

/-- Python indexing of an array of `len` elements, with negative indices counting from the end; `none` outside. -/
def pyGet (len : Nat) (a : Nat → α) (i : Int) : Option α :=
  if 0 ≤ i ∧ i < len then some (a i.toNat)
  else if i < 0 ∧ -(len : Int) ≤ i then some (a (i + len).toNat)
  else none

/-! ## Packing -/

theorem pack_spec (undef : Nat → α) (K : Nat → α) (W os : Nat) :
    ∃ p, packKernel undef (os * (W + 2)) K W os = .ok p ∧
      ∀ i < os * (W + 2), p i = K (i / (W + 2) + i % (W + 2) * os) := by
  unfold packKernel
  obtain ⟨p, hp, h⟩ := forRangeM_ok_inv (n := os) (init := undef) (f := fun t p => packStep (os * (W + 2)) K W os t p)
    (fun t p => ∀ i < t * (W + 2), p i = K (i / (W + 2) + i % (W + 2) * os)) (fun i hi => by omega)
    (by
      intro t p ht hP
      have hl : strideLen (os * (W + 2)) t os = W + 2 := by
        unfold strideLen
        have h1 : t ≤ os * (W + 2) := by nlinarith
        rw [show os * (W + 2) - t + (os - 1) = (os - 1 - t) + os * (W + 2) by omega, Nat.add_mul_div_left _ _ (by omega),
          Nat.div_eq_of_lt (by omega), zero_add]
      refine ⟨_, by rw [packStep, bcast, if_pos hl], ?_⟩
      intro i hi
      by_cases h : t * (W + 2) ≤ i
      · rw [if_pos ⟨h, hi⟩]
        obtain ⟨j, rfl⟩ : ∃ j, i = t * (W + 2) + j := ⟨i - t * (W + 2), by omega⟩
        have hj : j < W + 2 := by
          rw [Nat.add_mul] at hi; omega
        have e1 : (t * (W + 2) + j) / (W + 2) = t := by
          rw [mul_comm, Nat.mul_add_div (by omega), Nat.div_eq_of_lt hj, add_zero]
        have e2 : (t * (W + 2) + j) % (W + 2) = j := by
          rw [mul_comm, Nat.mul_add_mod, Nat.mod_eq_of_lt hj]
        rw [e1, e2]
        simp
      · rw [if_neg (fun h' => h h'.1)]
        exact hP i (by omega))
  exact ⟨p, hp, h⟩

theorem unpack_spec (undef : Nat → α) (K : Nat → α) (W os : Nat) :
    ∃ p, unpackKernel undef (os * (W + 2)) K W os = .ok p ∧
      ∀ i < os * (W + 2), p i = K (i % os * (W + 2) + i / os) := by
  unfold unpackKernel
  obtain ⟨p, hp, h⟩ := forRangeM_ok_inv (n := os) (init := undef) (f := fun t p => unpackStep (os * (W + 2)) K W os t p)
    (fun t p => ∀ i < os * (W + 2), i % os < t → p i = K (i % os * (W + 2) + i / os)) (fun i _ hi => by omega)
    (by
      intro t p ht hP
      have hl : sliceLen (os * (W + 2)) (t * (W + 2)) ((t + 1) * (W + 2)) = W + 2 := by
        unfold sliceLen
        have h1 : (t + 1) * (W + 2) ≤ os * (W + 2) := Nat.mul_le_mul_right _ (by omega)
        rw [Nat.min_eq_right h1, Nat.min_eq_right (by rw [Nat.add_mul] at h1; omega), Nat.add_mul]
        omega
      refine ⟨_, by rw [unpackStep, bcast, if_pos hl], ?_⟩
      intro i hi hm
      by_cases h : i % os = t
      · rw [if_pos ⟨h, hi⟩, h]
      · rw [if_neg (fun h' => h h'.1)]
        exact hP i hi (by omega))
  refine ⟨p, hp, fun i hi => h i hi (Nat.mod_lt _ ?_)⟩
  rcases Nat.eq_zero_or_pos os with h0 | h0
  · subst h0; omega
  · exact h0

/-- C74: packing a kernel and unpacking it returns the kernel, for every width and oversampling, whatever the newly
allocated arrays contain. -/
theorem C74_roundtrip (undef undef' : Nat → α) (K : Nat → α) (W os : Nat) :
    ∃ p u, packKernel undef (os * (W + 2)) K W os = .ok p ∧ unpackKernel undef' (os * (W + 2)) p W os = .ok u ∧
      ∀ i < os * (W + 2), u i = K i := by
  obtain ⟨p, hp, h1⟩ := pack_spec undef K W os
  obtain ⟨u, hu, h2⟩ := unpack_spec undef' p W os
  refine ⟨p, u, hp, hu, fun i hi => ?_⟩
  have hos : 0 < os := by
    rcases Nat.eq_zero_or_pos os with h | h
    · subst h; omega
    · exact h
  have hq : i / os < W + 2 := Nat.div_lt_of_lt_mul (by rw [mul_comm] at hi; rw [mul_comm]; exact hi)
  have hr := Nat.mod_lt i hos
  have hb : i % os * (W + 2) + i / os < os * (W + 2) := by nlinarith
  rw [h2 i hi, h1 _ hb]
  have e1 : (i % os * (W + 2) + i / os) / (W + 2) = i % os := by
    rw [mul_comm, Nat.mul_add_div (by omega), Nat.div_eq_of_lt hq, add_zero]
  have e2 : (i % os * (W + 2) + i / os) % (W + 2) = i / os := by
    rw [mul_comm, Nat.mul_add_mod, Nat.mod_eq_of_lt hq]
  rw [e1, e2, mul_comm, Nat.mod_add_div]

/-- C74: unpacking a packed layout and packing it again returns it. -/
theorem C74_roundtrip_packed (undef undef' : Nat → α) (K : Nat → α) (W os : Nat) :
    ∃ u p, unpackKernel undef (os * (W + 2)) K W os = .ok u ∧ packKernel undef' (os * (W + 2)) u W os = .ok p ∧
      ∀ i < os * (W + 2), p i = K i := by
  obtain ⟨u, hu, h2⟩ := unpack_spec undef K W os
  obtain ⟨p, hp, h1⟩ := pack_spec undef' u W os
  refine ⟨u, p, hu, hp, fun i hi => ?_⟩
  have hos : 0 < os := by
    rcases Nat.eq_zero_or_pos os with h | h
    · subst h; omega
    · exact h
  have hq : i / (W + 2) < os := Nat.div_lt_of_lt_mul (by rw [mul_comm]; exact hi)
  have hr := Nat.mod_lt i (show 0 < W + 2 by omega)
  have hb : i / (W + 2) + i % (W + 2) * os < os * (W + 2) := by nlinarith
  rw [h1 i hi, h2 _ hb]
  have e1 : (i / (W + 2) + i % (W + 2) * os) % os = i / (W + 2) := by
    rw [Nat.add_mul_mod_self_right, Nat.mod_eq_of_lt hq]
  have e2 : (i / (W + 2) + i % (W + 2) * os) / os = i % (W + 2) := by
    rw [Nat.add_mul_div_right _ _ hos, Nat.div_eq_of_lt hq, zero_add]
  rw [e1, e2, mul_comm, Nat.div_add_mod]

/-- C74: the lookup of the packed policies (a negative fraction wraps around) reads the tap that the lookup of the unpacked
policies reads, for every tap and every fraction of up to one cell, and both are inside the arrays. -/
theorem C74_lookup (undef : Nat → α) (K p : Nat → α) (W os : Nat)
    (hp : packKernel undef (os * (W + 2)) K W os = .ok p) (t : Nat) (ht : t < W) (frac : Int) (h1 : -(os : Int) ≤ frac)
    (h2 : frac < os) :
    ∃ a, pyGet (os * (W + 2)) K ((t + 1 : Nat) * os + frac) = some a ∧
      pyGet (os * (W + 2)) p (t + (if frac < 0 then 0 else 1) + frac * (W + 2)) = some a := by
  obtain ⟨p', hp', h⟩ := pack_spec undef K W os
  rw [hp] at hp'
  cases hp'
  have hos : 0 < os := by omega
  obtain ⟨f, rfl⟩ : ∃ f : Nat, frac = (f : Int) - os := ⟨(frac + os).toNat, by omega⟩
  have hf : f < 2 * os := by omega
  have hidx : ((t + 1 : Nat) : Int) * os + ((f : Int) - os) = ((t * os + f : Nat) : Int) := by
    push_cast; ring
  have hlt : t * os + f < os * (W + 2) := by nlinarith
  refine ⟨K (t * os + f), ?_, ?_⟩
  · rw [hidx, pyGet, if_pos ⟨by omega, by exact_mod_cast hlt⟩, Int.toNat_natCast]
  · by_cases hneg : f < os
    · rw [if_pos (by omega)]
      have hb : t + f * (W + 2) < os * (W + 2) := by nlinarith
      have e : (t : Int) + 0 + ((f : Int) - os) * (W + 2) + ((os * (W + 2) : Nat) : Int) = ((t + f * (W + 2) : Nat) : Int) := by
        push_cast; ring
      have hn : (t : Int) + 0 + ((f : Int) - os) * (W + 2) < 0 := by
        have : ((t + f * (W + 2) : Nat) : Int) < ((os * (W + 2) : Nat) : Int) := by exact_mod_cast hb
        omega
      rw [pyGet, if_neg (by omega), if_pos ⟨hn, by omega⟩, e, Int.toNat_natCast, h _ hb]
      have e1 : (t + f * (W + 2)) / (W + 2) = f := by
        rw [Nat.add_mul_div_right _ _ (by omega), Nat.div_eq_of_lt (by omega), zero_add]
      have e2 : (t + f * (W + 2)) % (W + 2) = t := by
        rw [Nat.add_mul_mod_self_right, Nat.mod_eq_of_lt (by omega)]
      rw [e1, e2, add_comm]
    · rw [if_neg (by omega)]
      obtain ⟨g, rfl⟩ : ∃ g, f = g + os := ⟨f - os, by omega⟩
      have hg : g < os := by omega
      have hb : t + 1 + g * (W + 2) < os * (W + 2) := by nlinarith
      have e : (t : Int) + 1 + (((g + os : Nat) : Int) - os) * (W + 2) = ((t + 1 + g * (W + 2) : Nat) : Int) := by
        push_cast; ring
      rw [e, pyGet, if_pos ⟨by omega, by exact_mod_cast hb⟩, Int.toNat_natCast, h _ hb]
      have e1 : (t + 1 + g * (W + 2)) / (W + 2) = g := by
        rw [Nat.add_mul_div_right _ _ (by omega), Nat.div_eq_of_lt (by omega), zero_add]
      have e2 : (t + 1 + g * (W + 2)) % (W + 2) = t + 1 := by
        rw [Nat.add_mul_mod_self_right, Nat.mod_eq_of_lt (by omega)]
      rw [e1, e2]
      congr 2
      ring

/-- A concrete case: width 3, oversampling 4, as drawn in the comments of the code (`048CG159DH26AEI37BFJ`). -/
example : ∃ p, packKernel (fun _ => 0) (4 * (3 + 2)) (fun i => i) 3 4 = .ok p ∧
    (List.range 20).map p = [0, 4, 8, 12, 16, 1, 5, 9, 13, 17, 2, 6, 10, 14, 18, 3, 7, 11, 15, 19] := by
  refine ⟨_, rfl, ?_⟩
  decide +kernel

/-- C74: a kernel whose length does not fit is refused. -/
theorem C74_rejects (undef : Nat → α) (K : Nat → α) (W os len : Nat) (hos : 0 < os)
    (h : strideLen len 0 os ≠ W + 2) (h1 : strideLen len 0 os ≠ 1) : ∃ e, packKernel undef len K W os = .error e := by
  obtain ⟨n, rfl⟩ : ∃ n, os = n + 1 := ⟨os - 1, by omega⟩
  have key : ∀ k, ∃ e, forRangeM (k + 1) undef (fun t p => packStep len K W (n + 1) t p) = .error e := by
    intro k
    induction k with
    | zero =>
      refine ⟨.valueError, ?_⟩
      rw [forRangeM_succ, forRangeM_zero]
      show packStep len K W (n + 1) 0 undef = _
      rw [packStep, bcast, if_neg h, if_neg h1]
    | succ k ih =>
      obtain ⟨e, he⟩ := ih
      exact ⟨e, by rw [forRangeM_succ, he]; rfl⟩
  exact key n

example : strideLen 7 0 3 ≠ 3 + 2 ∧ strideLen 7 0 3 ≠ 1 := by decide

/-! ## C99: kernels -/

/-- A kernel of `n` taps whose taps sum to one. -/
def SumsToOne (n : Nat) (k : Nat → ℝ) : Prop := ∑ i ∈ Finset.range n, k i = 1

theorem normalise_sum (n : Nat) (f : Nat → ℝ) (h : ∑ j ∈ Finset.range n, f j ≠ 0) : SumsToOne n (normalise n f) := by
  unfold SumsToOne normalise
  rw [← Finset.sum_div]
  exact div_self h

/-- C99: an even kernel width is refused by all three kernels. -/
theorem C99_rejects_even (W os : Nat) (hW : W % 2 = 0) (a : ℝ) (jn : Nat → ℝ → ℝ) (auto : Nat → ℝ) (b c : Option ℝ) (o : Nat) :
    sinc W os a = .error .assertionError ∧ kbsinc jn auto W b os o = .error .assertionError ∧
    hanningsinc auto W c os = .error .assertionError := by
  have : uspace W os = .error .assertionError := by simp [uspace, hW]
  refine ⟨?_, ?_, ?_⟩
  · rw [sinc, this]
  · simp only [kbsinc, this]
  · simp only [hanningsinc, this]

/-- C99: a kernel with odd width is returned, has `oversample * (W + 2)` taps, and whenever its taps do not sum to zero before
normalisation they sum to one afterwards; that is, either the taps sum to one or the normalisation divided by zero, in which
case (real numbers: `x / 0 = 0`) all taps are zero. -/
theorem C99_sums_to_one (W os : Nat) (hW : W % 2 = 1) (a : ℝ) (jn : Nat → ℝ → ℝ) (auto : Nat → ℝ) (b c : Option ℝ) (o : Nat) :
    (∃ k, sinc W os a = .ok k ∧ (SumsToOne (os * (W + 2)) k ∨ ∀ i, k i = 0)) ∧
    (∃ k, kbsinc jn auto W b os o = .ok k ∧ (SumsToOne (os * (W + 2)) k ∨ ∀ i, k i = 0)) ∧
    (∃ k, hanningsinc auto W c os = .ok k ∧ (SumsToOne (os * (W + 2)) k ∨ ∀ i, k i = 0)) := by
  have hu : uspace W os = .ok fun k => (k : ℝ) / os - ((W + 2) / 2 : Nat) := by simp [uspace, hW]
  have key : ∀ f : Nat → ℝ, SumsToOne (os * (W + 2)) (normalise (os * (W + 2)) f) ∨ ∀ i, normalise (os * (W + 2)) f i = 0 := by
    intro f
    by_cases h : ∑ j ∈ Finset.range (os * (W + 2)), f j = 0
    · right; intro i; rw [normalise, h, div_zero]
    · left; exact normalise_sum _ _ h
  refine ⟨?_, ?_, ?_⟩
  · rw [sinc, hu]; exact ⟨_, rfl, key _⟩
  · simp only [kbsinc, sinc, hu]; exact ⟨_, rfl, key _⟩
  · simp only [hanningsinc, sinc, hu]; exact ⟨_, rfl, key _⟩

/-- The sum is not zero in a concrete case: width 1 without oversampling, taps at -1, 0, 1. -/
example : ∃ k, sinc 1 1 1 = .ok k ∧ SumsToOne 3 k := by
  have hu : uspace 1 1 = .ok fun k => (k : ℝ) / (1 : Nat) - ((1 + 2) / 2 : Nat) := by simp [uspace]
  rw [sinc, hu]
  refine ⟨_, rfl, normalise_sum 3 _ ?_⟩
  simp [Finset.sum_range_succ, npSinc]
  norm_num

/-- C99: the square root taken by `kbsinc` is always that of a positive number, for every tap of every odd width. -/
theorem C99_kbsinc_domain (W os : Nat) (hW : W % 2 = 1) (hos : 0 < os) (k : Nat) (hk : k < os * (W + 2)) :
    ∃ u, uspace W os = .ok u ∧ 0 < kbRadicand W (u k) := by
  have hu : uspace W os = .ok fun k => (k : ℝ) / os - ((W + 2) / 2 : Nat) := by simp [uspace, hW]
  refine ⟨_, hu, ?_⟩
  obtain ⟨m, rfl⟩ : ∃ m, W = 2 * m + 1 := ⟨W / 2, by omega⟩
  have h1 : (2 * m + 1 + 2) / 2 = m + 1 := by omega
  simp only [kbRadicand]
  rw [h1]
  have hosR : (0 : ℝ) < os := by exact_mod_cast hos
  have hkR : (k : ℝ) < os * (2 * m + 1 + 2) := by exact_mod_cast hk
  have h2 : (k : ℝ) / os < 2 * m + 3 := by
    rw [div_lt_iff₀ hosR]; nlinarith
  have h3 : (0 : ℝ) ≤ (k : ℝ) / os := by positivity
  have hm : (0 : ℝ) ≤ m := Nat.cast_nonneg m
  have hd : (0 : ℝ) < ((2 * m + 1 + 2 : Nat) : ℝ) + 1 := by positivity
  push_cast at hd ⊢
  have habs : |2 * ((k : ℝ) / os - (m + 1)) / (2 * m + 1 + 2 + 1)| < 1 := by
    rw [abs_lt]
    constructor
    · rw [lt_div_iff₀ hd]; linarith
    · rw [div_lt_iff₀ hd]; linarith
  have := (sq_lt_one_iff_abs_lt_one _).2 habs
  linarith

example : 7 < 5 * (3 + 2) ∧ 3 % 2 = 1 := by decide

/-! ## C100: detapering functions -/

theorem cis_add (x y : ℝ) : cis (x + y) = cis x * cis y := by
  unfold cis
  rw [← Complex.exp_add]
  congr 1
  push_cast
  ring

theorem cis_int (n : ℤ) : cis n = 1 := by
  unfold cis
  rw [Complex.exp_eq_one_iff]
  refine ⟨-n, ?_⟩
  push_cast
  ring

theorem norm_cis (x : ℝ) : ‖cis x‖ = 1 := by
  unfold cis
  rw [← Complex.ofReal_neg]
  exact Complex.norm_exp_ofReal_mul_I _

/-- Phases of integer multiples of `1 / N` depend on the residue only. -/
theorem cis_mod (N : Nat) (hN : 0 < N) (a b : ℤ) (h : (N : ℤ) ∣ a - b) : cis ((a : ℝ) / N) = cis ((b : ℝ) / N) := by
  obtain ⟨c, hc⟩ := h
  have hNR : (N : ℝ) ≠ 0 := by exact_mod_cast hN.ne'
  have : (a : ℝ) / N = (b : ℝ) / N + (c : ℤ) := by
    have e : (a : ℝ) = b + N * c := by
      have : a = b + N * c := by linarith
      rw [this]; push_cast; ring
    rw [e]
    field_simp
  rw [this, cis_add, cis_int, mul_one]

theorem sum_shift {M : Type*} [AddCommMonoid M] (N s : Nat) (hN : 0 < N) (g : Nat → M) :
    ∑ a ∈ Finset.range N, g ((a + s) % N) = ∑ p ∈ Finset.range N, g p := by
  refine Finset.sum_nbij' (fun a => (a + s) % N) (fun p => (p + (N - s % N)) % N) ?_ ?_ ?_ ?_ ?_
  · intro a _; rw [Finset.mem_range]; exact Nat.mod_lt _ hN
  · intro a _; rw [Finset.mem_range]; exact Nat.mod_lt _ hN
  · intro a ha
    rw [Finset.mem_range] at ha
    have hs := Nat.mod_lt s hN
    have hd := Nat.div_add_mod s N
    have : (a + s) % N + (N - s % N) ≡ a [MOD N] := by
      calc (a + s) % N + (N - s % N) ≡ a + s + (N - s % N) [MOD N] := (Nat.mod_modEq _ _).add_right _
        _ = a + (s + (N - s % N)) := by ring
        _ ≡ a + 0 [MOD N] := by
          refine Nat.ModEq.add_left _ ((Nat.modEq_zero_iff_dvd).2 ⟨s / N + 1, ?_⟩)
          rw [mul_add, mul_one]; omega
    exact (show _ % N = a % N from this).trans (Nat.mod_eq_of_lt ha)
  · intro p hp
    rw [Finset.mem_range] at hp
    have hs := Nat.mod_lt s hN
    have hd := Nat.div_add_mod s N
    have : (p + (N - s % N)) % N + s ≡ p [MOD N] := by
      calc (p + (N - s % N)) % N + s ≡ p + (N - s % N) + s [MOD N] := (Nat.mod_modEq _ _).add_right _
        _ = p + (s + (N - s % N)) := by ring
        _ ≡ p + 0 [MOD N] := by
          refine Nat.ModEq.add_left _ ((Nat.modEq_zero_iff_dvd).2 ⟨s / N + 1, ?_⟩)
          rw [mul_add, mul_one]; omega
    exact (show _ % N = p % N from this).trans (Nat.mod_eq_of_lt hp)
  · intro a _; rfl

/-- A sum over `N` with support in a block of `s` from `o`. -/
theorem sum_block {M : Type*} [AddCommMonoid M] (N s o : Nat) (h : o + s ≤ N) (g : Nat → M)
    (hg : ∀ p < N, ¬ (o ≤ p ∧ p < o + s) → g p = 0) : ∑ p ∈ Finset.range N, g p = ∑ x ∈ Finset.range s, g (o + x) := by
  obtain ⟨m, rfl⟩ : ∃ m, N = o + s + m := ⟨N - (o + s), by omega⟩
  rw [Finset.sum_range_add, Finset.sum_range_add]
  rw [Finset.sum_eq_zero (fun p hp => hg p (by rw [Finset.mem_range] at hp; omega) (by rw [Finset.mem_range] at hp; omega)),
    Finset.sum_eq_zero (s := Finset.range m) (fun p hp => hg (o + s + p) (by rw [Finset.mem_range] at hp; omega) (by omega)),
    zero_add, add_zero]

theorem sum_flat {M : Type*} [AddCommMonoid M] (s0 s1 : Nat) (g : Nat → Nat → M) :
    ∑ x ∈ Finset.range (s0 * s1), g (x / s1) (x % s1) = ∑ y ∈ Finset.range s0, ∑ x ∈ Finset.range s1, g y x := by
  induction s0 with
  | zero => simp
  | succ n ih =>
    rw [Nat.add_mul, one_mul, Finset.sum_range_add, ih, Finset.sum_range_succ]
    congr 1
    refine Finset.sum_congr rfl fun x hx => ?_
    rw [Finset.mem_range] at hx
    have e1 : (n * s1 + x) / s1 = n := by
      rw [mul_comm, Nat.mul_add_div (by omega), Nat.div_eq_of_lt hx, add_zero]
    have e2 : (n * s1 + x) % s1 = x := by
      rw [mul_comm, Nat.mul_add_mod, Nat.mod_eq_of_lt hx]
    rw [e1, e2]

/-- The normalised image coordinate of a pixel. -/
noncomputable def coord (npix i : Nat) : ℝ := ((i : ℝ) - (npix / 2 : Nat)) / npix

/-- Value of `compute_detaper_dft`. -/
theorem dft_value (npix s0 s1 : Nat) (K : Nat → Nat → ℝ) (W os : Nat) (u : Nat → ℝ) (hu : uspace W os = .ok u) :
    ∃ d, computeDetaperDft npix s0 s1 K W os = .ok d ∧ ∀ i < npix, ∀ j < npix,
      d i j = ‖∑ y ∈ Finset.range s0, ∑ x ∈ Finset.range s1, (K y x : ℂ) * cis (coord npix j * u x + coord npix i * u y)‖ := by
  rw [computeDetaperDft, hu]
  refine ⟨_, rfl, fun i hi j hj => ?_⟩
  simp only []
  congr 1
  have hk : i * npix + j < npix * npix := by nlinarith
  have := forRange_single (n := npix * npix) (init := fun _ _ => (0 : ℂ))
    (f := fun p pk => fun i j =>
      if i = p / npix ∧ j = p % npix then detaperPixel npix s0 s1 K u (p / npix) (p % npix) (pk (p / npix) (p % npix)) else pk i j)
    (fun pk => pk i j) (i * npix + j) hk (fun a => detaperPixel npix s0 s1 K u i j a)
    (by
      intro s
      have e1 : (i * npix + j) / npix = i := by
        rw [mul_comm, Nat.mul_add_div (by omega), Nat.div_eq_of_lt hj, add_zero]
      have e2 : (i * npix + j) % npix = j := by
        rw [mul_comm, Nat.mul_add_mod, Nat.mod_eq_of_lt hj]
      simp only [e1, e2, and_self, if_true])
    (by
      intro p hp hne s
      refine if_neg ?_
      rintro ⟨h1, h2⟩
      apply hne
      rw [h1, h2, mul_comm, Nat.div_add_mod])
  refine this.trans ?_
  simp only [detaperPixel]
  refine (forRange_sum (obs := fun a : ℂ => a) (g := fun x => (K (x / s1) (x % s1) : ℂ) *
    cis (coord npix j * u (x % s1) + coord npix i * u (x / s1))) (fun _ _ _ => rfl)).trans ?_
  rw [zero_add]
  exact sum_flat s0 s1 fun y x => (K y x : ℂ) * cis (coord npix j * u x + coord npix i * u y)

/-- C100: the detapering function from the separable kernel is the one from its outer product with itself. -/
theorem C100_separable (npix s : Nat) (K : Nat → ℝ) (W os : Nat) (hW : W % 2 = 1) :
    ∃ d d', computeDetaperSep npix s K W os = .ok d ∧ computeDetaperDft npix s s (fun y x => K y * K x) W os = .ok d' ∧
      ∀ i < npix, ∀ j < npix, d i j = d' i j := by
  have hu : uspace W os = .ok fun k => (k : ℝ) / os - ((W + 2) / 2 : Nat) := by simp [uspace, hW]
  generalize (fun k : Nat => (k : ℝ) / os - ((W + 2) / 2 : Nat)) = u at hu
  obtain ⟨d', hd', h⟩ := dft_value npix s s (fun y x => K y * K x) W os u hu
  rw [computeDetaperSep, hu]
  refine ⟨_, d', rfl, hd', fun i hi j hj => ?_⟩
  rw [h i hi j hj]
  have hpk : ∀ l < npix, (forRange npix (fun _ => (0 : ℂ)) fun ll pk =>
      forRange s pk fun x pk =>
        Function.update pk ll (pk ll + (K x : ℂ) * cis (((ll : ℝ) - (npix / 2 : Nat)) / npix * u x))) l
      = ∑ x ∈ Finset.range s, (K x : ℂ) * cis (coord npix l * u x) := by
    intro l hl
    have := forRange_single (n := npix) (init := fun _ => (0 : ℂ)) (f := fun ll pk =>
      forRange s pk fun x pk =>
        Function.update pk ll (pk ll + (K x : ℂ) * cis (((ll : ℝ) - (npix / 2 : Nat)) / npix * u x)))
      (fun pk => pk l) l hl (fun a => a + ∑ x ∈ Finset.range s, (K x : ℂ) * cis (coord npix l * u x))
      (by
        intro pk
        exact forRange_sum (obs := fun pk : Nat → ℂ => pk l) (g := fun x => (K x : ℂ) * cis (coord npix l * u x))
          (fun x _ pk => by simp [coord]))
      (by
        intro ll _ hne pk
        exact forRange_const (obs := fun pk : Nat → ℂ => pk l) (fun x _ pk => by simp [Function.update_of_ne hne.symm]))
    rw [this, zero_add]
  refine (congrArg (fun z : ℂ => ‖z‖) (congrArg₂ (· * ·) (hpk i hi) (hpk j hj))).trans ?_
  congr 1
  rw [Finset.sum_mul_sum]
  refine Finset.sum_congr rfl fun y _ => Finset.sum_congr rfl fun x _ => ?_
  rw [add_comm (coord npix j * u x), cis_add]
  push_cast
  ring

/-- C100: the detapering function computed by a padded fast Fourier transform is the one computed by a direct transform of the
kernel's samples, for every square kernel that fits. -/
theorem C100_fft (npix s : Nat) (K : Nat → Nat → ℝ) (W os : Nat) (hW : W % 2 = 1) (hos : 0 < os) (hs : s ≤ npix * os) :
    ∃ d d', computeDetaper npix s K os = .ok d ∧ computeDetaperDft npix s s K W os = .ok d' ∧
      ∀ i < npix, ∀ j < npix, d i j = d' i j := by
  have hu : uspace W os = .ok fun k => (k : ℝ) / os - ((W + 2) / 2 : Nat) := by simp [uspace, hW]
  obtain ⟨d', hd', h⟩ := dft_value npix s s K W os _ hu
  refine ⟨_, d', by rw [computeDetaper, if_pos hs], hd', fun i hi j hj => ?_⟩
  rw [h i hi j hj]
  have hnp : 0 < npix := by omega
  have hN : 0 < npix * os := Nat.mul_pos hnp hos
  have hcrop : npix / 2 ≤ npix * os / 2 := Nat.div_le_div_right (Nat.le_mul_of_pos_right _ hos)
  generalize hNdef : npix * os = N at *
  generalize ho : N / 2 - s / 2 = o
  have hos2 : o + s ≤ N := by omega
  -- the frequency read at a pixel
  have hfreq : ∀ l < npix, ∃ f : ℤ, f = (l : ℤ) - (npix / 2 : Nat) ∧ (N : ℤ) ∣ (fftIdx N (N / 2 - npix / 2 + l) : ℤ) - f := by
    intro l hl
    refine ⟨_, rfl, ?_⟩
    have : ((fftIdx N (N / 2 - npix / 2 + l) : Nat) : ℤ) = ((N / 2 - npix / 2 + l + (N - N / 2) : Nat) : ℤ) % (N : ℤ) := by
      unfold fftIdx; push_cast; rfl
    rw [this, show ((N / 2 - npix / 2 + l + (N - N / 2) : Nat) : ℤ) = ((l : ℤ) - (npix / 2 : Nat)) + N by omega,
      Int.add_emod_right]
    have h2 := Int.emod_add_mul_ediv ((l : ℤ) - (npix / 2 : Nat)) N
    exact ⟨-(((l : ℤ) - (npix / 2 : Nat)) / N), by linarith⟩
  obtain ⟨fi, hfi, hdi⟩ := hfreq i hi
  obtain ⟨fj, hfj, hdj⟩ := hfreq j hj
  show ‖fft2 N (fun a b => padded N s K (ifftIdx N a) (ifftIdx N b)) (fftIdx N (N / 2 - npix / 2 + i))
    (fftIdx N (N / 2 - npix / 2 + j))‖ = _
  generalize fftIdx N (N / 2 - npix / 2 + i) = ki at hdi ⊢
  generalize fftIdx N (N / 2 - npix / 2 + j) = kj at hdj ⊢
  have hNR : (N : ℝ) ≠ 0 := by exact_mod_cast hN.ne'
  -- phase of one axis, for the shifted index
  have hphase : ∀ (k : Nat) (f : ℤ), (N : ℤ) ∣ (k : ℤ) - f → ∀ a : Nat,
      cis ((k : ℝ) * a / N) = cis (-(f * (N / 2 : Nat) : ℝ) / N) * cis ((f : ℝ) * (ifftIdx N a : Nat) / N) := by
    intro k f hd a
    rw [← cis_add]
    have e1 : (k : ℝ) * a / N = (((k : ℤ) * a : ℤ) : ℝ) / N := by push_cast; rfl
    have e2 : -(f * (N / 2 : Nat) : ℝ) / N + (f : ℝ) * (ifftIdx N a : Nat) / N
        = ((f * ((ifftIdx N a : Nat) - (N / 2 : Nat)) : ℤ) : ℝ) / N := by
      simp only [Int.cast_mul, Int.cast_sub, Int.cast_natCast]; ring
    rw [e1, e2]
    refine cis_mod N hN _ _ ?_
    have hmod : (N : ℤ) ∣ (a : ℤ) - ((ifftIdx N a : Nat) - (N / 2 : Nat) : ℤ) := by
      have : ((ifftIdx N a : Nat) : ℤ) = ((a : ℤ) + (N / 2 : Nat)) % N := by
        unfold ifftIdx; push_cast; rfl
      rw [this]
      have h2 := Int.emod_add_mul_ediv ((a : ℤ) + (N / 2 : Nat)) N
      exact ⟨((a : ℤ) + (N / 2 : Nat)) / N, by linarith⟩
    have : (k : ℤ) * a - f * ((ifftIdx N a : Nat) - (N / 2 : Nat))
        = ((k : ℤ) - f) * a + f * ((a : ℤ) - ((ifftIdx N a : Nat) - (N / 2 : Nat))) := by ring
    rw [this]
    exact dvd_add (Dvd.dvd.mul_right hd _) (Dvd.dvd.mul_left hmod _)
  have hF : fft2 N (fun a b => padded N s K (ifftIdx N a) (ifftIdx N b)) ki kj
      = cis (-(fi * (N / 2 : Nat) : ℝ) / N) * cis (-(fj * (N / 2 : Nat) : ℝ) / N) * (cis ((fi : ℝ) * o / N) * cis ((fj : ℝ) * o / N)) *
        ∑ y ∈ Finset.range s, ∑ x ∈ Finset.range s, (K y x : ℂ) * (cis ((fi : ℝ) * y / N) * cis ((fj : ℝ) * x / N)) := by
    unfold fft2
    have step1 : ∀ a b : Nat, ((padded N s K (ifftIdx N a) (ifftIdx N b) : ℝ) : ℂ) * cis (((ki : ℝ) * a + (kj : ℝ) * b) / N)
        = cis (-(fi * (N / 2 : Nat) : ℝ) / N) * cis (-(fj * (N / 2 : Nat) : ℝ) / N) *
          ((padded N s K (ifftIdx N a) (ifftIdx N b) : ℂ) *
            (cis ((fi : ℝ) * (ifftIdx N a : Nat) / N) * cis ((fj : ℝ) * (ifftIdx N b : Nat) / N))) := by
      intro a b
      rw [add_div, cis_add, hphase ki fi hdi a, hphase kj fj hdj b]
      ring
    simp only [step1, ← Finset.mul_sum]
    rw [mul_assoc (cis _ * cis _)]
    congr 1
    have s1 := fun a : Nat => sum_shift N (N / 2) hN (fun q => ((padded N s K (ifftIdx N a) q : ℝ) : ℂ) *
      (cis ((fi : ℝ) * (ifftIdx N a : Nat) / N) * cis ((fj : ℝ) * (q : Nat) / N)))
    have e : ∑ a ∈ Finset.range N, ∑ b ∈ Finset.range N, ((padded N s K (ifftIdx N a) (ifftIdx N b) : ℝ) : ℂ) *
            (cis ((fi : ℝ) * (ifftIdx N a : Nat) / N) * cis ((fj : ℝ) * (ifftIdx N b : Nat) / N))
        = ∑ a ∈ Finset.range N, ∑ q ∈ Finset.range N, ((padded N s K (ifftIdx N a) q : ℝ) : ℂ) *
            (cis ((fi : ℝ) * (ifftIdx N a : Nat) / N) * cis ((fj : ℝ) * (q : Nat) / N)) :=
      Finset.sum_congr rfl fun a _ => s1 a
    rw [e]
    have s2 := sum_shift N (N / 2) hN (fun p => ∑ q ∈ Finset.range N, ((padded N s K p q : ℝ) : ℂ) *
      (cis ((fi : ℝ) * (p : Nat) / N) * cis ((fj : ℝ) * (q : Nat) / N)))
    refine (show _ = _ from s2).trans ?_
    rw [sum_block N s o hos2]
    · rw [Finset.mul_sum]
      refine Finset.sum_congr rfl fun y hy => ?_
      rw [sum_block N s o hos2]
      · rw [Finset.mul_sum]
        refine Finset.sum_congr rfl fun x hx => ?_
        rw [Finset.mem_range] at hx hy
        have hp : padded N s K (o + y) (o + x) = K y x := by
          unfold padded
          rw [ho, if_pos (by omega)]
          congr 1 <;> omega
        rw [hp]
        have e1 : (fi : ℝ) * ((o + y : Nat) : ℝ) / N = fi * o / N + fi * y / N := by push_cast; ring
        have e2 : (fj : ℝ) * ((o + x : Nat) : ℝ) / N = fj * o / N + fj * x / N := by push_cast; ring
        rw [e1, e2, cis_add, cis_add]
        ring
      · intro p _ hn
        have : padded N s K (o + y) p = 0 := by
          unfold padded; rw [ho, if_neg (by omega)]
        rw [this]; simp
    · intro p _ hn
      refine Finset.sum_eq_zero fun q _ => ?_
      have : padded N s K p q = 0 := by
        unfold padded; rw [ho, if_neg (by omega)]
      rw [this]; simp
  have hR : ∑ y ∈ Finset.range s, ∑ x ∈ Finset.range s, (K y x : ℂ) *
        cis (coord npix j * ((x : ℝ) / os - ((W + 2) / 2 : Nat)) + coord npix i * ((y : ℝ) / os - ((W + 2) / 2 : Nat)))
      = cis (-(coord npix j * ((W + 2) / 2 : Nat))) * cis (-(coord npix i * ((W + 2) / 2 : Nat))) *
        ∑ y ∈ Finset.range s, ∑ x ∈ Finset.range s, (K y x : ℂ) * (cis ((fi : ℝ) * y / N) * cis ((fj : ℝ) * x / N)) := by
    rw [Finset.mul_sum]
    refine Finset.sum_congr rfl fun y _ => ?_
    rw [Finset.mul_sum]
    refine Finset.sum_congr rfl fun x _ => ?_
    have hnpR : (npix : ℝ) ≠ 0 := by exact_mod_cast hnp.ne'
    have hosR : (os : ℝ) ≠ 0 := by exact_mod_cast hos.ne'
    have hNN : (N : ℝ) = npix * os := by rw [← hNdef]; push_cast; ring
    have e : ∀ (l : Nat) (f : ℤ) (x : Nat), f = (l : ℤ) - (npix / 2 : Nat) →
        coord npix l * ((x : ℝ) / os - ((W + 2) / 2 : Nat)) = -(coord npix l * ((W + 2) / 2 : Nat)) + f * x / N := by
      intro l f x hf
      rw [hNN, hf]
      unfold coord
      simp only [Int.cast_sub, Int.cast_natCast]
      field_simp
      ring
    rw [cis_add, e j fj x hfj, e i fi y hfi, cis_add, cis_add]
    ring
  rw [hR, hF]
  simp only [norm_mul, norm_cis, one_mul]

/-- The hypotheses are met: the kernel of width 3, oversampling 5 in an image of 16 pixels. -/
example : 3 % 2 = 1 ∧ 0 < 5 ∧ 5 * (3 + 2) ≤ 16 * 5 := by decide

end Verif.Gridding
