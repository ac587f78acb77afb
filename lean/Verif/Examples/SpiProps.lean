/-
C159: the convolution of the model cube with the restoring beam. C160: the restoring beam. C161: the maps.
-/
import Verif.Examples.SpiLemmas
import Mathlib.Analysis.Real.Pi.Irrational
import Mathlib.Analysis.SpecialFunctions.Trigonometric.Bounds
import Mathlib.Analysis.Complex.ExponentialBounds
import Mathlib.Tactic.Linarith
import Mathlib.Tactic.Positivity
import Mathlib.Tactic.LinearCombination
import Mathlib.Tactic.Tauto
import Mathlib.Tactic.NormNum

set_option autoImplicit false

namespace Verif.Examples

open Finset

/-! ### Specification of C159 -/

/-- Specification: the restoring beam, zero outside its image. -/
noncomputable def beamAt (npixL npixM : Nat) (kern : Nat → Nat → ℝ) (a b : ℤ) : ℝ :=
  if 0 ≤ a ∧ a < npixL ∧ 0 ≤ b ∧ b < npixM then kern a.toNat b.toNat else 0

/-- Specification: the length of an axis with its padding. -/
noncomputable def padded (fast : Option (Nat → Nat)) (frac : ℝ) (npix : Nat) : Nat :=
  npix + (padding fast frac npix).1 + (padding fast frac npix).2

/-- Specification: the pixel of the beam that is put on the position of a component. -/
def beamPixel (n npix : Nat) : ℤ := (n / 2 : Nat) - ((n - npix) / 2 : Nat)

/-! ### Lemmas -/

private theorem padding_left (fast : Option (Nat → Nat)) (hfast : ∀ g, fast = some g → ∀ k, k ≤ g k) (frac : ℝ)
    (npix : Nat) : (padding fast frac npix).1 = (padded fast frac npix - npix) / 2 := by
  unfold padded padding
  cases fast with
  | none => dsimp only; omega
  | some g =>
    dsimp only
    have := hfast g rfl (npix + 2 * ⌊frac / 2 * npix⌋₊)
    omega

private theorem sum_inside {M : Type*} [AddCommMonoid M] (left npix right : Nat) (F : Nat → M) :
    ∑ p ∈ range (npix + left + right), (if left ≤ p ∧ p < left + npix then F p else 0) = ∑ s ∈ range npix, F (left + s) := by
  rw [← sum_filter]
  symm
  refine sum_nbij' (fun s => left + s) (fun p => p - left) ?_ ?_ ?_ ?_ (fun _ _ => rfl)
  · intro s hs
    rw [mem_range] at hs
    rw [mem_filter, mem_range]
    omega
  · intro p hp
    rw [mem_filter, mem_range] at hp
    rw [mem_range]; omega
  · intro s _; show left + s - left = s; omega
  · intro p hp
    rw [mem_filter, mem_range] at hp
    show left + (p - left) = p
    omega

private theorem shift_index (n p q : Nat) (hn : 0 < n) (hp : p < n) :
    iFs n ((fs n q + (n - p)) % n) = (q + n / 2 + (n - iFs n p)) % n := by
  have hlt : (p + n / 2) % n < n := Nat.mod_lt _ hn
  have key : ((iFs n ((fs n q + (n - p)) % n) : Nat) : ℤ) ≡ ((q + n / 2 + (n - iFs n p)) : Nat) [ZMOD n] := by
    unfold iFs fs
    rw [Nat.mod_add_mod, add_assoc ((q + (n - n / 2)) % n), Nat.mod_add_mod, ← add_assoc]
    have e : ((q + n / 2 + (n - (p + n / 2) % n) : Nat) : ℤ) = q + (n / 2 : Nat) + n - ((p + n / 2) % n : Nat) := by
      push_cast [Nat.cast_sub hlt.le]; ring
    rw [e]
    have e2 : (((p + n / 2) % n : Nat) : ℤ) ≡ p + (n / 2 : Nat) [ZMOD n] := by
      push_cast; exact Int.mod_modEq _ _
    have h2 : n / 2 ≤ n := by omega
    have e3 : (((q + (n - n / 2) + (n - p) + n / 2) % n : Nat) : ℤ) ≡ q + n + n - p [ZMOD n] := by
      have : ((q + (n - n / 2) + (n - p) + n / 2 : Nat) : ℤ) = q + n + n - p := by
        rw [Nat.cast_add, Nat.cast_add, Nat.cast_add, Nat.cast_sub h2, Nat.cast_sub hp.le]; ring
      rw [← this, Int.natCast_mod]; exact Int.mod_modEq _ _
    refine e3.trans ?_
    refine Int.ModEq.trans ?_ (Int.ModEq.sub_left _ e2).symm
    rw [show (q : ℤ) + (n / 2 : Nat) + n - (p + (n / 2 : Nat)) = (q + n + n - p) + n * (-1) by ring]
    exact (Int.modEq_iff_dvd.2 ⟨-1, by ring⟩)
  have h1 : iFs n ((fs n q + (n - p)) % n) < n := Nat.mod_lt _ hn
  have key' := Int.natCast_modEq_iff.1 key
  unfold Nat.ModEq at key'
  rw [Nat.mod_eq_of_lt h1] at key'
  exact key'

/-- Where the beam is read: at its pixel, or outside of where it may be non-zero. -/
private theorem axis (n npix left right i s : Nat) (hn : n = npix + left + right) (hl : left = (n - npix) / 2)
    (hi : i < npix) (hs : s < npix) :
    (∃ a < npix, (left + i + n / 2 + (n - (left + s))) % n = left + a ∧ (i : ℤ) - s + beamPixel n npix = a) ∨
      (¬ (0 ≤ (i : ℤ) - s + beamPixel n npix ∧ (i : ℤ) - s + beamPixel n npix < npix) ∧
        ∀ a < npix, (left + i + n / 2 + (n - (left + s))) % n = left + a → (n : ℤ) - npix < |(a : ℤ) - beamPixel n npix|) := by
  have hn0 : 0 < n := by omega
  unfold beamPixel
  rw [← hl]
  by_cases h1 : i + n / 2 < s
  · have hw : (left + i + n / 2 + (n - (left + s))) % n = i + n / 2 + n - s := by
      rw [show left + i + n / 2 + (n - (left + s)) = i + n / 2 + n - s by omega]
      exact Nat.mod_eq_of_lt (by omega)
    rw [hw]
    refine Or.inr ⟨by omega, fun a ha e => ?_⟩
    rw [lt_abs]
    omega
  · by_cases h2 : i + n / 2 - s < n
    · have hw : (left + i + n / 2 + (n - (left + s))) % n = i + n / 2 - s := by
        rw [show left + i + n / 2 + (n - (left + s)) = (i + n / 2 - s) + n by omega, Nat.add_mod_right]
        exact Nat.mod_eq_of_lt h2
      rw [hw]
      by_cases h3 : left ≤ i + n / 2 - s ∧ i + n / 2 - s < left + npix
      · exact Or.inl ⟨i + n / 2 - s - left, by omega, by omega, by omega⟩
      · refine Or.inr ⟨by omega, fun a ha e => ?_⟩
        omega
    · have hw : (left + i + n / 2 + (n - (left + s))) % n = i + n / 2 - s - n := by
        rw [show left + i + n / 2 + (n - (left + s)) = (i + n / 2 - s - n) + n * 2 by omega, Nat.add_mul_mod_self_left]
        exact Nat.mod_eq_of_lt (by omega)
      rw [hw]
      refine Or.inr ⟨by omega, fun a ha e => ?_⟩
      rw [lt_abs]
      omega

/-- The padded beam where it is read. -/
private theorem pad_beam (n1 n2 npixL npixM l1 r1 l2 r2 i j s v : Nat) (kern : Nat → Nat → ℝ)
    (hn1 : n1 = npixL + l1 + r1) (hl1 : l1 = (n1 - npixL) / 2) (hn2 : n2 = npixM + l2 + r2) (hl2 : l2 = (n2 - npixM) / 2)
    (hi : i < npixL) (hj : j < npixM) (hs : s < npixL) (hv : v < npixM)
    (hk : ∀ a < npixL, ∀ b < npixM, kern a b ≠ 0 →
      |(a : ℤ) - beamPixel n1 npixL| ≤ n1 - npixL ∧ |(b : ℤ) - beamPixel n2 npixM| ≤ n2 - npixM) :
    pad npixL npixM l1 l2 kern ((l1 + i + n1 / 2 + (n1 - (l1 + s))) % n1) ((l2 + j + n2 / 2 + (n2 - (l2 + v))) % n2) =
      beamAt npixL npixM kern (i - s + beamPixel n1 npixL) (j - v + beamPixel n2 npixM) := by
  have A := axis n1 npixL l1 r1 i s hn1 hl1 hi hs
  have B := axis n2 npixM l2 r2 j v hn2 hl2 hj hv
  generalize (l1 + i + n1 / 2 + (n1 - (l1 + s))) % n1 = w1 at A ⊢
  generalize (l2 + j + n2 / 2 + (n2 - (l2 + v))) % n2 = w2 at B ⊢
  generalize (i : ℤ) - s + beamPixel n1 npixL = x1 at A ⊢
  generalize (j : ℤ) - v + beamPixel n2 npixM = x2 at B ⊢
  unfold pad beamAt
  have zero : (x1 < 0 ∨ (npixL : ℤ) ≤ x1 ∨ x2 < 0 ∨ (npixM : ℤ) ≤ x2) →
      (∀ a < npixL, ∀ b < npixM, w1 = l1 + a → w2 = l2 + b → kern a b = 0) →
      (if l1 ≤ w1 ∧ w1 < l1 + npixL ∧ l2 ≤ w2 ∧ w2 < l2 + npixM then kern (w1 - l1) (w2 - l2) else 0) =
        if 0 ≤ x1 ∧ x1 < npixL ∧ 0 ≤ x2 ∧ x2 < npixM then kern x1.toNat x2.toNat else 0 := by
    intro hx hz
    rw [if_neg (show ¬ (0 ≤ x1 ∧ x1 < npixL ∧ 0 ≤ x2 ∧ x2 < npixM) by omega)]
    split_ifs with h
    · exact hz _ (by omega) _ (by omega) (by omega) (by omega)
    · rfl
  rcases A with ⟨a, ha, hw1, hx1⟩ | ⟨hx1, hfar⟩
  · rcases B with ⟨b, hb, hw2, hx2⟩ | ⟨hx2, hfar⟩
    · rw [hw1, hw2, hx1, hx2, if_pos (by omega), if_pos (by omega)]
      congr 1 <;> omega
    · refine zero (by omega) fun a' ha' b hb e1 e2 => ?_
      by_contra hne
      have h1 := (hk a' ha' b hb hne).2
      have h2 := hfar b hb e2
      omega
  · refine zero (by omega) fun a ha b hb e1 e2 => ?_
    by_contra hne
    have h1 := (hk a ha b hb hne).1
    have h2 := hfar a ha e1
    omega

/-! ### C159 -/

/-- **C159** With padding on both sides that the beam does not exceed, the result has the shape of the model and each
pixel is the sum of all components of the model times the beam, `beamPixel` of which is on the component. Without
pypocketfft the padded last axis must be even. -/
theorem C159_partial (pocketfft : Bool) (fast : Option (Nat → Nat)) (hfast : ∀ g, fast = some g → ∀ k, k ≤ g k) (frac : ℝ)
    (npixL npixM : Nat) (model kern : Nat → Nat → ℝ) (n1 n2 : Nat) (hn1 : n1 = padded fast frac npixL)
    (hn2 : n2 = padded fast frac npixM) (hr1 : (padding fast frac npixL).2 ≠ 0) (hr2 : (padding fast frac npixM).2 ≠ 0)
    (heven : pocketfft = true ∨ n2 % 2 = 0)
    (hk : ∀ a < npixL, ∀ b < npixM, kern a b ≠ 0 →
      |(a : ℤ) - beamPixel n1 npixL| ≤ n1 - npixL ∧ |(b : ℤ) - beamPixel n2 npixM| ≤ n2 - npixM) :
    (convolveModel pocketfft fast frac npixL npixM model kern).1 = (npixL, npixM) ∧
      ∀ i < npixL, ∀ j < npixM, (convolveModel pocketfft fast frac npixL npixM model kern).2 i j =
        ∑ s ∈ range npixL, ∑ v ∈ range npixM,
          model s v * beamAt npixL npixM kern (i - s + beamPixel n1 npixL) (j - v + beamPixel n2 npixM) := by
  have hl1 := padding_left fast hfast frac npixL
  have hl2 := padding_left fast hfast frac npixM
  rw [← hn1] at hl1
  rw [← hn2] at hl2
  unfold padded at hn1 hn2
  unfold convolveModel
  rcases hp1 : padding fast frac npixL with ⟨l1, r1⟩
  rcases hp2 : padding fast frac npixM with ⟨l2, r2⟩
  rw [hp1] at hn1 hr1 hl1
  rw [hp2] at hn2 hr2 hl2
  dsimp only at hn1 hn2 hr1 hr2 hl1 hl2 ⊢
  rw [← hn1, ← hn2]
  have hsize : (if pocketfft = true then n2 else 2 * (n2 / 2)) = n2 := by
    split_ifs with h
    · rfl
    · rcases heven with h' | h'
      · exact absurd h' h
      · omega
  rw [hsize]
  refine ⟨?_, fun i hi j hj => ?_⟩
  · unfold slicedLength
    rw [if_neg hr1, if_neg hr2]
    congr 1 <;> omega
  have p1 : 0 < n1 := by omega
  have p2 : 0 < n2 := by omega
  rw [irfft2_product n1 n2 _ _ (fs n1 (l1 + i)) (fs n2 (l2 + j)) (Nat.mod_lt _ p1) (Nat.mod_lt _ p2)]
  unfold cyclic
  have e : ∀ p ∈ range n1, ∀ q ∈ range n2,
      pad npixL npixM l1 l2 model (iFs n1 p) (iFs n2 q) *
        pad npixL npixM l1 l2 kern (iFs n1 ((fs n1 (l1 + i) + (n1 - p)) % n1)) (iFs n2 ((fs n2 (l2 + j) + (n2 - q)) % n2)) =
      (fun p' q' => pad npixL npixM l1 l2 model p' q' *
        pad npixL npixM l1 l2 kern ((l1 + i + n1 / 2 + (n1 - p')) % n1) ((l2 + j + n2 / 2 + (n2 - q')) % n2))
        ((p + n1 / 2) % n1) ((q + n2 / 2) % n2) := by
    intro p hp q hq
    rw [shift_index n1 p (l1 + i) p1 (mem_range.1 hp), shift_index n2 q (l2 + j) p2 (mem_range.1 hq)]
    rfl
  rw [sum_congr rfl fun p hp => sum_congr rfl fun q hq => e p hp q hq]
  rw [sum_cyclic n1 (n1 / 2) fun p' => ∑ q ∈ range n2, (fun p' q' => pad npixL npixM l1 l2 model p' q' *
        pad npixL npixM l1 l2 kern ((l1 + i + n1 / 2 + (n1 - p')) % n1) ((l2 + j + n2 / 2 + (n2 - q')) % n2))
        p' ((q + n2 / 2) % n2)]
  rw [sum_congr rfl fun p' _ => sum_cyclic n2 (n2 / 2) fun q' => pad npixL npixM l1 l2 model p' q' *
        pad npixL npixM l1 l2 kern ((l1 + i + n1 / 2 + (n1 - p')) % n1) ((l2 + j + n2 / 2 + (n2 - q')) % n2)]
  have inner : ∀ p' ∈ range n1, ∑ q' ∈ range n2, pad npixL npixM l1 l2 model p' q' *
        pad npixL npixM l1 l2 kern ((l1 + i + n1 / 2 + (n1 - p')) % n1) ((l2 + j + n2 / 2 + (n2 - q')) % n2) =
      if l1 ≤ p' ∧ p' < l1 + npixL then ∑ v ∈ range npixM, model (p' - l1) v *
        pad npixL npixM l1 l2 kern ((l1 + i + n1 / 2 + (n1 - p')) % n1) ((l2 + j + n2 / 2 + (n2 - (l2 + v))) % n2)
      else 0 := by
    intro p' _
    split_ifs with h
    · have := sum_inside l2 npixM r2 fun q' => model (p' - l1) (q' - l2) *
        pad npixL npixM l1 l2 kern ((l1 + i + n1 / 2 + (n1 - p')) % n1) ((l2 + j + n2 / 2 + (n2 - q')) % n2)
      rw [← hn2] at this
      simp only [Nat.add_sub_cancel_left] at this
      rw [← this]
      refine sum_congr rfl fun q' _ => ?_
      conv_lhs => rw [pad]
      by_cases hq : l2 ≤ q' ∧ q' < l2 + npixM
      · rw [if_pos ⟨h.1, h.2, hq⟩, if_pos hq]
      · rw [if_neg (fun hh => hq hh.2.2), if_neg hq, zero_mul]
    · refine sum_eq_zero fun q' _ => ?_
      rw [pad, if_neg (fun hh => h ⟨hh.1, hh.2.1⟩), zero_mul]
  rw [sum_congr rfl inner, hn1, sum_inside l1 npixL r1, ← hn1]
  refine sum_congr rfl fun s hs => sum_congr rfl fun v hv => ?_
  rw [Nat.add_sub_cancel_left, pad_beam n1 n2 npixL npixM l1 r1 l2 r2 i j s v kern hn1 hl1 hn2 hl2 hi hj
    (mem_range.1 hs) (mem_range.1 hv) hk]

/-- **C159** The middle pixel of the beam is put on the component, unless the image has an odd number of pixels and the
padded image an even one: then it is the next pixel. -/
theorem C159_position (n npix : Nat) (h : npix ≤ n) :
    beamPixel n npix = (npix / 2 : Nat) + if n % 2 = 0 ∧ npix % 2 = 1 then 1 else 0 := by
  unfold beamPixel
  split_ifs <;> omega

/-- **C159** fails for images with an odd number of pixels that are padded to an even one: a beam of one pixel in the
middle of the image moves the model by a pixel. -/
theorem C159_moved_violated (fast : Option (Nat → Nat)) (hfast : ∀ g, fast = some g → ∀ k, k ≤ g k) (frac : ℝ)
    (npixL npixM : Nat) (model : Nat → Nat → ℝ) (hr1 : (padding fast frac npixL).2 ≠ 0)
    (hr2 : (padding fast frac npixM).2 ≠ 0) (odd1 : npixL % 2 = 1) (even1 : padded fast frac npixL % 2 = 0)
    (even2 : npixM % 2 = 0) (i j : Nat) (hi : i + 1 < npixL) (hj : j < npixM) :
    (convolveModel true fast frac npixL npixM model fun a b => if a = npixL / 2 ∧ b = npixM / 2 then 1 else 0).2 i j =
      model (i + 1) j := by
  have b1 : beamPixel (padded fast frac npixL) npixL = (npixL / 2 : Nat) + 1 := by
    rw [C159_position _ _ (by unfold padded; omega), if_pos ⟨even1, odd1⟩]
  have b2 : beamPixel (padded fast frac npixM) npixM = (npixM / 2 : Nat) := by
    rw [C159_position _ _ (by unfold padded; omega), if_neg (by omega), add_zero]
  have h1 : npixL < padded fast frac npixL := by unfold padded; omega
  have h2 : npixM < padded fast frac npixM := by unfold padded; omega
  rw [(C159_partial true fast hfast frac npixL npixM model _ _ _ rfl rfl hr1 hr2 (Or.inl rfl) (by
    intro a ha b hb hne
    simp only [ne_eq, ite_eq_right_iff, one_ne_zero, imp_false, not_not] at hne
    obtain ⟨rfl, rfl⟩ := hne
    rw [b1, b2]
    constructor
    · rw [abs_le]; omega
    · rw [abs_le]; omega)).2 i (by omega) j hj, b1, b2]
  have cell : ∀ s ∈ range npixL, ∀ v ∈ range npixM,
      model s v * beamAt npixL npixM (fun a b => if a = npixL / 2 ∧ b = npixM / 2 then (1 : ℝ) else 0)
        (i - s + ((npixL / 2 : Nat) + 1)) (j - v + (npixM / 2 : Nat)) = if s = i + 1 then if v = j then model s v else 0 else 0 := by
    intro s hs v hv
    rw [mem_range] at hs hv
    unfold beamAt
    dsimp only
    by_cases hc : s = i + 1 ∧ v = j
    · rw [if_pos hc.1, if_pos hc.2, if_pos (by omega), if_pos (by omega), mul_one]
    · have hz : (if s = i + 1 then if v = j then model s v else 0 else 0) = 0 := by
        split_ifs <;> first | rfl | (exfalso; omega)
      rw [hz]
      split_ifs
      · exfalso; omega
      · rw [mul_zero]
      · rw [mul_zero]
  rw [sum_congr rfl fun s hs => sum_congr rfl fun v hv => cell s hs v hv]
  rw [sum_eq_single_of_mem (i + 1) (mem_range.2 hi) (fun s _ hs => by simp [hs])]
  simp [hj]

/-- **C159** fails if an axis is not padded: the result has no pixels. -/
theorem C159_unpadded_violated (pocketfft : Bool) (fast : Option (Nat → Nat)) (frac : ℝ) (npixL npixM : Nat)
    (model kern : Nat → Nat → ℝ) (h : (padding fast frac npixL).2 = 0) :
    (convolveModel pocketfft fast frac npixL npixM model kern).1.1 = 0 := by
  unfold convolveModel slicedLength
  rcases hp1 : padding fast frac npixL with ⟨l1, r1⟩
  rw [hp1] at h
  dsimp only at h ⊢
  rw [if_pos h, Nat.zero_sub]

/-- **C159** fails without pypocketfft if the padded last axis is odd: a column is missing. -/
theorem C159_odd_violated (fast : Option (Nat → Nat)) (frac : ℝ) (npixL npixM : Nat)
    (model kern : Nat → Nat → ℝ) (h : padded fast frac npixM % 2 = 1) (hr : (padding fast frac npixM).2 ≠ 0) :
    (convolveModel false fast frac npixL npixM model kern).1.2 = npixM - 1 := by
  unfold padded at h
  unfold convolveModel slicedLength
  simp only [Bool.false_eq_true, if_false, hr]
  omega

/-- Fifteen pixels with the default padding and the fast length 18 meet the hypotheses: the image moves by a pixel. -/
example : padding (some fun k => if k = 17 then 18 else k) (1 / 5) 15 = (1, 2) ∧
    padding (some fun k => if k = 17 then 18 else k) (1 / 5) 16 = (1, 1) := by
  have h1 : ⌊(1 / 5 : ℝ) / 2 * (15 : Nat)⌋₊ = 1 := by rw [Nat.floor_eq_iff (by positivity)]; norm_num
  have h2 : ⌊(1 / 5 : ℝ) / 2 * (16 : Nat)⌋₊ = 1 := by rw [Nat.floor_eq_iff (by positivity)]; norm_num
  unfold padding
  simp only [h1, h2]
  decide

/-! ### C160 -/

/-- **C160** The beam is one at the centre, between zero and one everywhere, the same on both sides of the centre and zero
beyond five times the larger width. -/
theorem C160_shape (rows cols : Nat) (xin yin : Nat → Nat → ℝ) (s0 s1 pa : ℝ) (g : Nat → Nat → ℝ)
    (h : gaussian2D rows cols xin yin s0 s1 pa = .ok g) (i j : Nat) (hi : i < rows) (hj : j < cols) :
    (xin i j = 0 → yin i j = 0 → g i j = 1) ∧ 0 ≤ g i j ∧ g i j ≤ 1 ∧
      ((5 * max s0 s1) ^ 2 < xin i j ^ 2 + yin i j ^ 2 → g i j = 0) ∧
      (∀ i' < rows, ∀ j' < cols, xin i' j' = -xin i j → yin i' j' = -yin i j → g i' j' = g i j) := by
  classical
  have mem : ∀ i j, (i, j) ∈ gaussPixels rows cols xin yin (max s0 s1) ↔
      i < rows ∧ j < cols ∧ xin i j ^ 2 + yin i j ^ 2 ≤ (5 * max s0 s1) ^ 2 := by
    intro i j
    unfold gaussPixels
    simp [and_assoc]
  unfold gaussian2D at h
  dsimp only at h
  split_ifs at h with h1 h2
  injection h with h
  have hform : 0 ≤ gaussForm s0 s1 pa (xin i j) (yin i j) := by unfold gaussForm; positivity
  have hroot : 0 ≤ Real.sqrt (2 * Real.log 2) := Real.sqrt_nonneg _
  subst h
  dsimp only
  refine ⟨fun hx hy => ?_, ?_, ?_, fun hfar => ?_, fun i' hi' j' hj' hx hy => ?_⟩
  · rw [if_pos ((mem i j).2 ⟨hi, hj, by rw [hx, hy]; simpa using sq_nonneg (5 * max s0 s1)⟩), hx, hy]
    simp [gaussForm]
  · split_ifs
    · exact (Real.exp_pos _).le
    · exact le_rfl
  · split_ifs
    · rw [Real.exp_le_one_iff]
      have := mul_nonneg (mul_nonneg zero_le_two hroot) hform
      linarith
    · exact zero_le_one
  · rw [if_neg fun hm => absurd ((mem i j).1 hm).2.2 (not_le.2 hfar)]
  · have hm : ((i', j') ∈ gaussPixels rows cols xin yin (max s0 s1)) ↔
        (i, j) ∈ gaussPixels rows cols xin yin (max s0 s1) := by
      rw [mem, mem, hx, hy, neg_sq, neg_sq]
      simp [hi, hj, hi', hj']
    have hf : gaussForm s0 s1 pa (xin i' j') (yin i' j') = gaussForm s0 s1 pa (xin i j) (yin i j) := by
      rw [hx, hy]; unfold gaussForm; dsimp only; ring
    simp only [hm, hf]

/-- **C160** Which width is given first does not matter; if both are equal the position angle does not matter either. -/
theorem C160_widths (rows cols : Nat) (xin yin : Nat → Nat → ℝ) (s0 s1 pa pa' : ℝ) :
    gaussian2D rows cols xin yin s0 s1 pa = gaussian2D rows cols xin yin s1 s0 pa ∧
      gaussian2D rows cols xin yin s0 s0 pa = gaussian2D rows cols xin yin s0 s0 pa' := by
  constructor
  · unfold gaussian2D gaussForm
    rw [max_comm, min_comm]
  · have : ∀ x y, gaussForm s0 s0 pa x y = gaussForm s0 s0 pa' x y := by
      intro x y
      unfold gaussForm
      rw [max_self, min_self]
      dsimp only
      rw [← add_div, ← add_div]
      congr 1
      have h1 := Real.sin_sq_add_cos_sq (90 + pa)
      have h2 := Real.sin_sq_add_cos_sq (90 + pa')
      linear_combination (x ^ 2 + y ^ 2) * h1 - (x ^ 2 + y ^ 2) * h2
    unfold gaussian2D
    simp only [this]

/-- The direction of the larger width: a unit vector along which the beam falls as `exp(-2 sqrt(2 ln 2) r^2 / s^2)`. -/
private theorem form_axis (s0 s1 pa r : ℝ) :
    gaussForm s0 s1 pa (r * Real.cos (90 + pa)) (-(r * Real.sin (90 + pa))) = r ^ 2 / max s0 s1 ^ 2 := by
  unfold gaussForm
  dsimp only
  have h := Real.sin_sq_add_cos_sq (90 + pa)
  rw [show Real.cos (90 + pa) * (r * Real.cos (90 + pa)) - Real.sin (90 + pa) * -(r * Real.sin (90 + pa)) = r by
      linear_combination r * h,
    show Real.sin (90 + pa) * (r * Real.cos (90 + pa)) + Real.cos (90 + pa) * -(r * Real.sin (90 + pa)) = 0 by ring]
  simp

/-- **C160** fails: the beam does not have the requested full width at half maximum. It is `(2 ln 2)^(1/4)`, about 1.085,
times as wide: at half of that width the form is `sqrt(2 ln 2) / 4` and the beam one half; at half of the requested width
the beam is larger than one half. -/
theorem C160_width_violated (s0 s1 pa : ℝ) (hs : 0 < max s0 s1) :
    (∀ r, (2 * r) ^ 2 = Real.sqrt (2 * Real.log 2) * max s0 s1 ^ 2 →
      Real.exp (-(2 * Real.sqrt (2 * Real.log 2)) *
        gaussForm s0 s1 pa (r * Real.cos (90 + pa)) (-(r * Real.sin (90 + pa)))) = 1 / 2) ∧
    1 / 2 < Real.exp (-(2 * Real.sqrt (2 * Real.log 2)) *
      gaussForm s0 s1 pa (max s0 s1 / 2 * Real.cos (90 + pa)) (-(max s0 s1 / 2 * Real.sin (90 + pa)))) := by
  have hlog : 0 < Real.log 2 := Real.log_pos (by norm_num)
  have hsq : Real.sqrt (2 * Real.log 2) ^ 2 = 2 * Real.log 2 := Real.sq_sqrt (by positivity)
  have hpos : 0 < Real.sqrt (2 * Real.log 2) := Real.sqrt_pos.2 (by positivity)
  have hhalf : (1 / 2 : ℝ) = Real.exp (-Real.log 2) := by
    rw [Real.exp_neg, Real.exp_log (by norm_num)]; norm_num
  refine ⟨fun r hr => ?_, ?_⟩
  · rw [form_axis, hhalf]
    congr 1
    have : r ^ 2 / max s0 s1 ^ 2 = Real.sqrt (2 * Real.log 2) / 4 := by
      rw [div_eq_div_iff (by positivity) (by norm_num)]
      linarith
    rw [this]
    linear_combination -(1 / 2 : ℝ) * hsq
  · rw [form_axis, hhalf, Real.exp_lt_exp]
    have : (max s0 s1 / 2) ^ 2 / max s0 s1 ^ 2 = 1 / 4 := by
      field_simp; norm_num
    rw [this]
    have hbig : 1 < Real.sqrt (2 * Real.log 2) := by
      rw [Real.lt_sqrt (by norm_num)]
      have := Real.log_two_gt_d9
      linarith
    nlinarith

/-- **C160** fails: the position angle is in degrees but used in radians. For a rational number of degrees the larger width
points to that position angle (from the second axis towards the first) only if it is -90. -/
theorem C160_angle_violated (s0 s1 : ℝ) (h0 : 0 < s0) (h1 : s0 < s1) (pa : ℚ) (r : ℝ) (hr : r ≠ 0) :
    gaussForm s0 s1 pa (r * Real.sin (pa * Real.pi / 180)) (r * Real.cos (pa * Real.pi / 180)) = r ^ 2 / s1 ^ 2 ↔
      pa = -90 := by
  have hmax : max s0 s1 = s1 := max_eq_right h1.le
  have hmin : min s0 s1 = s0 := min_eq_left h1.le
  set t : ℝ := 90 + pa with ht
  set θ : ℝ := pa * Real.pi / 180 with hθ
  have key : gaussForm s0 s1 pa (r * Real.sin θ) (r * Real.cos θ) =
      r ^ 2 / s1 ^ 2 + r ^ 2 * Real.cos (t - θ) ^ 2 * (1 / s0 ^ 2 - 1 / s1 ^ 2) := by
    unfold gaussForm
    rw [hmax, hmin]
    dsimp only
    rw [← ht, Real.cos_sub]
    have e1 := Real.sin_sq_add_cos_sq t
    have e2 := Real.sin_sq_add_cos_sq θ
    have : (Real.cos t * (r * Real.sin θ) - Real.sin t * (r * Real.cos θ)) ^ 2 =
        r ^ 2 - r ^ 2 * (Real.cos t * Real.cos θ + Real.sin t * Real.sin θ) ^ 2 := by
      linear_combination r ^ 2 * e1 + r ^ 2 * (Real.sin t ^ 2 + Real.cos t ^ 2) * e2
    rw [this]
    ring
  rw [key]
  have hgap : 0 < 1 / s0 ^ 2 - 1 / s1 ^ 2 := by
    rw [sub_pos]
    exact one_div_lt_one_div_of_lt (by positivity) (by nlinarith)
  have step : r ^ 2 / s1 ^ 2 + r ^ 2 * Real.cos (t - θ) ^ 2 * (1 / s0 ^ 2 - 1 / s1 ^ 2) = r ^ 2 / s1 ^ 2 ↔
      Real.cos (t - θ) = 0 := by
    rw [add_eq_left]
    constructor
    · intro h
      rcases mul_eq_zero.1 h with h | h
      · rcases mul_eq_zero.1 h with h | h
        · exact absurd (pow_eq_zero_iff (two_ne_zero)|>.1 h) hr
        · exact pow_eq_zero_iff (two_ne_zero)|>.1 h
      · exact absurd h hgap.ne'
    · intro h; rw [h]; ring
  rw [step]
  constructor
  · intro h
    rw [Real.cos_eq_zero_iff] at h
    obtain ⟨k, hk⟩ := h
    by_contra hne
    have hq : ((90 + pa : ℚ) : ℝ) = Real.pi * ((2 * k + 1) / 2 + pa / 180 : ℚ) := by
      push_cast
      linear_combination hk + hθ - ht
    by_cases hz : ((2 * k + 1) / 2 + pa / 180 : ℚ) = 0
    · rw [hz, Rat.cast_zero, mul_zero] at hq
      have : (90 + pa : ℚ) = 0 := by exact_mod_cast hq
      exact hne (by linarith)
    · have hpi : Real.pi = ((90 + pa) / ((2 * k + 1) / 2 + pa / 180) : ℚ) := by
        rw [Rat.cast_div, hq, mul_div_assoc, div_self (by exact_mod_cast hz), mul_one]
      exact irrational_pi ⟨_, hpi.symm⟩
  · intro h
    rw [ht, hθ, h]
    have : (90 + ((-90 : ℚ) : ℝ)) - ((-90 : ℚ) : ℝ) * Real.pi / 180 = Real.pi / 2 := by push_cast; ring
    rw [this, Real.cos_pi_div_two]

/-- **C160** fails if just one pixel is within five times the larger width, or if the image has one row or one column. -/
theorem C160_one_pixel_violated (rows cols : Nat) (xin yin : Nat → Nat → ℝ) (s0 s1 pa : ℝ)
    (h : rows = 1 ∨ cols = 1 ∨ (gaussPixels rows cols xin yin (max s0 s1)).length = 1) :
    gaussian2D rows cols xin yin s0 s1 pa = .error .indexError := by
  unfold gaussian2D
  dsimp only
  by_cases h1 : rows = 1 ∨ cols = 1
  · rw [if_pos h1]
  · rw [if_neg h1, if_pos (by tauto)]

/-- A round beam of one unit on an image of three by three pixels. -/
example : ∃ g, gaussian2D 3 3 (fun _ j => j - 1) (fun i _ => i - 1) 1 1 0 = .ok g := by
  unfold gaussian2D
  dsimp only
  rw [if_neg (by omega), if_neg]
  · exact ⟨_, rfl⟩
  · intro h
    have h0 : ((0 : Nat), (0 : Nat)) ∈ gaussPixels 3 3 (fun _ j => (j : ℝ) - 1) (fun i _ => (i : ℝ) - 1) (max 1 1) := by
      unfold gaussPixels
      rw [List.mem_filter]
      refine ⟨by decide, ?_⟩
      simp only [decide_eq_true_eq]
      norm_num
    have h1 : ((1 : Nat), (1 : Nat)) ∈ gaussPixels 3 3 (fun _ j => (j : ℝ) - 1) (fun i _ => (i : ℝ) - 1) (max 1 1) := by
      unfold gaussPixels
      rw [List.mem_filter]
      refine ⟨by decide, ?_⟩
      simp only [decide_eq_true_eq]
      norm_num
    obtain ⟨x, hx⟩ := List.length_eq_one_iff.1 h
    rw [hx, List.mem_singleton] at h0 h1
    rw [← h1] at h0
    simp at h0

/-! ### C161 -/

private theorem pixels_nodup (rows cols : Nat) :
    ((List.range rows).flatMap fun i => (List.range cols).map fun j => (i, j)).Nodup := by
  rw [List.nodup_flatMap]
  refine ⟨fun i _ => (List.nodup_range).map fun a b h => by simpa using h, ?_⟩
  refine List.Pairwise.imp ?_ List.nodup_range
  intro a b hab
  simp only [Function.onFun, List.disjoint_left, List.mem_map]
  rintro x ⟨j, _, rfl⟩ ⟨j', _, e⟩
  exact hab (by simpa using (congrArg Prod.fst e).symm)

/-- **C161** Exactly the pixels whose flux is above the threshold in every band are fitted, each once; if there are none
the program stops. -/
theorem C161_pixels (nband rows cols : Nat) (model : Nat → Nat → Nat → ℝ) (threshold : ℝ) :
    (∀ ind, maskIndices nband rows cols model threshold = .ok ind → ind.Nodup ∧
      ∀ i j, (i, j) ∈ ind ↔ i < rows ∧ j < cols ∧ ∀ b < nband, threshold < model b i j) ∧
    (maskIndices nband rows cols model threshold = .error .valueError ↔
      ∀ i < rows, ∀ j < cols, ∃ b < nband, model b i j ≤ threshold) := by
  classical
  unfold maskIndices
  dsimp only
  constructor
  · intro ind h
    split_ifs at h
    injection h with h
    subst h
    refine ⟨(pixels_nodup rows cols).filter _, fun i j => ?_⟩
    simp [and_assoc]
  · split_ifs with h
    · simp only [true_iff]
      intro i hi j hj
      rw [List.filter_eq_nil_iff] at h
      have := h (i, j) (by simp [hi, hj])
      simpa using this
    · simp only [false_iff]
      intro hall
      apply h
      rw [List.filter_eq_nil_iff]
      rintro ⟨i, j⟩ hm
      simp only [List.mem_flatMap, List.mem_range, List.mem_map, Prod.mk.injEq, existsAndEq, and_true] at hm
      simpa using hall i (by simp_all) j (by simp_all)

private theorem fold_map (values : Nat → ℝ) (ind : List (Nat × Nat)) (k : Nat) (acc : Nat → Nat → ℝ) (i j : Nat)
    (hnd : ind.Nodup) :
    ((ind.zipIdx k).foldl (fun acc e => fun i j => if (i, j) = e.1 then values e.2 else acc i j) acc) i j =
      if (i, j) ∈ ind then values (k + ind.idxOf (i, j)) else acc i j := by
  induction ind generalizing k acc with
  | nil => simp
  | cons p ps ih =>
    rw [List.nodup_cons] at hnd
    rw [List.zipIdx_cons, List.foldl_cons, ih _ _ hnd.2]
    by_cases hm : (i, j) ∈ ps
    · have hne : p ≠ (i, j) := fun e => hnd.1 (e ▸ hm)
      rw [if_pos hm, if_pos (List.mem_cons_of_mem _ hm), List.idxOf_cons_ne _ hne]
      congr 1; omega
    · rw [if_neg hm]
      by_cases he : (i, j) = p
      · rw [if_pos he, if_pos (by simp [he]), he, List.idxOf_cons_self, Nat.add_zero]
      · rw [if_neg he, if_neg (by simp [he, hm])]

/-- **C161** In square images every fitted value is at its own pixel and all other pixels are zero. -/
theorem C161_maps_partial (n : Nat) (nband : Nat) (model : Nat → Nat → Nat → ℝ) (threshold : ℝ) (ind : List (Nat × Nat))
    (h : maskIndices nband n n model threshold = .ok ind) (values : Nat → ℝ) :
    ∃ map, mapOf n n ind values = .ok map ∧ (∀ k p, ind[k]? = some p → map p.1 p.2 = values k) ∧
      ∀ i j, (i, j) ∉ ind → map i j = 0 := by
  obtain ⟨hnd, hmem⟩ := (C161_pixels nband n n model threshold).1 ind h
  refine ⟨_, if_pos fun p hp => ?_, fun k p hk => ?_, fun i j hij => ?_⟩
  · have := (hmem p.1 p.2).1 hp
    exact ⟨this.1, this.2.1⟩
  · obtain ⟨hlt, rfl⟩ := List.getElem?_eq_some_iff.1 hk
    rw [fold_map values ind 0 _ _ _ hnd, if_pos (List.getElem_mem hlt), Nat.zero_add]
    congr 1
    exact hnd.idxOf_getElem k hlt
  · rw [fold_map values ind 0 _ _ _ hnd, if_neg hij]

/-- **C161** fails for images that are not square: the maps have rows and columns exchanged, and a bright pixel outside
the exchanged shape stops the program. -/
theorem C161_oblong_violated (npixL npixM nband : Nat) (model : Nat → Nat → Nat → ℝ) (threshold : ℝ)
    (ind : List (Nat × Nat)) (h : maskIndices nband npixM npixL model threshold = .ok ind) (values : Nat → ℝ) (i j : Nat)
    (hi : i < npixM) (hj : j < npixL) (bright : ∀ b < nband, threshold < model b i j) (out : npixL ≤ i ∨ npixM ≤ j) :
    mapOf npixL npixM ind values = .error .indexError := by
  have hm := ((C161_pixels nband npixM npixL model threshold).1 ind h).2 i j
  unfold mapOf
  rw [if_neg]
  intro hall
  have := hall (i, j) (hm.2 ⟨hi, hj, bright⟩)
  dsimp only at this
  omega

/-- **C161** The components are divided into chunks of one and the same positive size, unless there are fewer components
than threads: that stops the program. -/
theorem C161_chunks (ncomps ncpu : Nat) (h : 0 < ncpu) :
    (ncpu ≤ ncomps → ∃ c, componentChunks ncomps ncpu = .ok c ∧ 0 < c ∧ c * ncpu ≤ ncomps) ∧
      (ncomps < ncpu → componentChunks ncomps ncpu = .error .zeroDivisionError) := by
  unfold componentChunks
  rw [if_neg h.ne']
  constructor
  · intro hle
    have hpos := Nat.div_pos hle h
    exact ⟨_, if_neg hpos.ne', hpos, Nat.div_mul_le_self _ _⟩
  · intro hlt
    rw [if_pos (Nat.div_eq_of_lt hlt)]

/-- **C161** Without a name for the output the files are put next to the model; a model in the current directory gives
the prefix `image-`. -/
theorem C161_prefix (dir name : List Char) (h : '/' ∉ name) :
    (name ≠ [] → outPrefix none (dir ++ '/' :: name) = dir ++ ['/']) ∧ outPrefix none name = "image-".toList ∧
      ∀ o, outPrefix (some o) name = o := by
  refine ⟨fun hne => ?_, ?_, fun o => rfl⟩
  · have hidx : (dir ++ '/' :: name).reverse.findIdx? (· = '/') = some name.length := by
      rw [List.reverse_append, List.reverse_cons, List.append_assoc, List.findIdx?_append,
        List.findIdx?_eq_none_iff.2 (by
          intro x hx
          simp only [decide_eq_false_iff_not]
          rintro rfl
          exact h (List.mem_reverse.1 hx))]
      simp [List.findIdx?_cons]
    unfold outPrefix
    rw [hidx]
    dsimp only
    have : name.length ≠ 0 := fun e => hne (List.length_eq_zero_iff.1 e)
    rw [if_neg this]
    have hlen : (dir ++ '/' :: name).length - name.length = (dir ++ ['/']).length := by
      simp only [List.length_append, List.length_cons, List.length_nil]; omega
    rw [hlen, show dir ++ '/' :: name = (dir ++ ['/']) ++ name by simp, List.take_left']
    rfl
  · unfold outPrefix
    rw [List.findIdx?_eq_none_iff.2 (by
      intro x hx
      simp only [decide_eq_false_iff_not]
      rintro rfl
      exact h (List.mem_reverse.1 hx))]

/-- Two bright pixels of an image of two by three, in one band: the second does not fit into the exchanged shape. -/
example : ∃ ind, maskIndices 1 2 3 (fun _ i j => if (i, j) = (0, 0) ∨ (i, j) = (1, 2) then 1 else 0) 0 = .ok ind ∧
    ∀ values, mapOf 3 2 ind values = .error .indexError := by
  classical
  have hne : maskIndices 1 2 3 (fun _ i j => if (i, j) = (0, 0) ∨ (i, j) = (1, 2) then 1 else 0) 0 ≠ .error .valueError := by
    rw [Ne, (C161_pixels _ _ _ _ _).2]
    push Not
    exact ⟨0, by omega, 0, by omega, fun b _ => by simp⟩
  have hok : ∃ ind, maskIndices 1 2 3 (fun _ i j => if (i, j) = (0, 0) ∨ (i, j) = (1, 2) then 1 else 0) 0 = .ok ind := by
    unfold maskIndices at hne ⊢
    dsimp only at hne ⊢
    split_ifs at hne ⊢ with h
    · exact absurd rfl hne
    · exact ⟨_, rfl⟩
  obtain ⟨ind, hind⟩ := hok
  exact ⟨ind, hind, fun values => C161_oblong_violated 3 2 1 _ 0 ind hind values 1 2 (by omega) (by omega)
    (fun b _ => by simp) (Or.inr le_rfl)⟩

end Verif.Examples
