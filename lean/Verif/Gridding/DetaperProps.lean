/-
C180: what the detapering functions of africanus/gridding/perleypolyhedron/kernels.py are at the centre of the image, how large they can
be and which symmetries they have.
-/
import Verif.Gridding.KernelsProps

set_option autoImplicit false

namespace Verif.Gridding

open Finset

/-! ### Specification -/

/-- The three detapering functions, for the kernel `K` of `s` samples along each axis. -/
inductive Detapers (npix s : Nat) (K : Nat → ℝ) (W os : Nat) (d : Nat → Nat → ℝ) : Prop
  | fft : s ≤ npix * os → computeDetaper npix s (fun y x => K y * K x) os = .ok d → Detapers npix s K W os d
  | dft : computeDetaperDft npix s s (fun y x => K y * K x) W os = .ok d → Detapers npix s K W os d
  | separable : computeDetaperSep npix s K W os = .ok d → Detapers npix s K W os d

/-- Two pixels of an axis opposite to each other about the centre of the image. -/
def Opposite (npix i i' : Nat) : Prop := i + i' = 2 * (npix / 2)

/-! ### Lemmas -/

private theorem coord_centre (npix : Nat) : coord npix (npix / 2) = 0 := by
  unfold coord; rw [sub_self, zero_div]

private theorem coord_opposite {npix i i' : Nat} (h : Opposite npix i i') : coord npix i' = -coord npix i := by
  have : (i : ℝ) + i' = 2 * ((npix / 2 : Nat) : ℝ) := by exact_mod_cast h
  unfold coord
  rw [← neg_div]
  congr 1
  linarith

private theorem cis_neg (x : ℝ) : cis (-x) = star (cis x) := by
  unfold cis
  rw [RCLike.star_def, ← Complex.exp_conj, map_mul, Complex.conj_I, map_neg, Complex.conj_ofReal]
  congr 1
  push_cast
  ring

private theorem cis_norm (x : ℝ) : ‖cis x‖ = 1 := by
  unfold cis
  rw [show (-((2 * Real.pi * x : ℝ) : ℂ)) = ((-(2 * Real.pi * x) : ℝ) : ℂ) by push_cast; rfl, Complex.norm_exp_ofReal_mul_I]

/-- The transform along one axis. -/
private noncomputable def axis (npix s : Nat) (K u : Nat → ℝ) (i : Nat) : ℂ :=
  ∑ x ∈ range s, (K x : ℂ) * cis (coord npix i * u x)

private theorem sum_axis (npix s : Nat) (K u : Nat → ℝ) (i j : Nat) :
    ∑ y ∈ range s, ∑ x ∈ range s, ((K y * K x : ℝ) : ℂ) * cis (coord npix j * u x + coord npix i * u y) =
      axis npix s K u i * axis npix s K u j := by
  unfold axis
  rw [sum_mul_sum]
  refine sum_congr rfl fun y _ => sum_congr rfl fun x _ => ?_
  rw [cis_add]
  push_cast
  ring

private theorem value {npix s W os : Nat} (hW : W % 2 = 1) (hos : 0 < os) {K : Nat → ℝ} {d : Nat → Nat → ℝ} (h : Detapers npix s K W os d) :
    ∃ u, ∀ i < npix, ∀ j < npix, d i j = ‖axis npix s K u i‖ * ‖axis npix s K u j‖ := by
  have hu : uspace W os = .ok fun k => (k : ℝ) / os - ((W + 2) / 2 : Nat) := by simp [uspace, hW]
  refine ⟨fun k => (k : ℝ) / os - ((W + 2) / 2 : Nat), fun i hi j hj => ?_⟩
  obtain ⟨d', hd', hv⟩ := dft_value npix s s (fun y x => K y * K x) W os _ hu
  rw [← norm_mul, ← sum_axis, ← hv i hi j hj]
  cases h with
  | fft hs h =>
    obtain ⟨e, e', h1, h2, h3⟩ := C100_fft npix s (fun y x => K y * K x) W os hW hos hs
    rw [h] at h1
    rw [hd'] at h2
    cases h1
    cases h2
    exact h3 i hi j hj
  | dft h =>
    rw [h] at hd'
    cases hd'
    rfl
  | separable h =>
    obtain ⟨e, e', h1, h2, h3⟩ := C100_separable npix s K W os hW
    rw [h] at h1
    rw [hd'] at h2
    cases h1
    cases h2
    exact h3 i hi j hj

private theorem axis_centre (npix s : Nat) (K u : Nat → ℝ) : axis npix s K u (npix / 2) = ((∑ x ∈ range s, K x : ℝ) : ℂ) := by
  unfold axis
  rw [coord_centre, Complex.ofReal_sum]
  refine sum_congr rfl fun x _ => ?_
  simp [cis]

private theorem axis_le (npix s : Nat) (K u : Nat → ℝ) (i : Nat) : ‖axis npix s K u i‖ ≤ ∑ x ∈ range s, |K x| := by
  unfold axis
  refine (norm_sum_le _ _).trans (sum_le_sum fun x _ => ?_)
  rw [norm_mul, cis_norm, mul_one, Complex.norm_real, Real.norm_eq_abs]

private theorem axis_opposite {npix i i' : Nat} (h : Opposite npix i i') (s : Nat) (K u : Nat → ℝ) :
    ‖axis npix s K u i'‖ = ‖axis npix s K u i‖ := by
  have e : axis npix s K u i' = star (axis npix s K u i) := by
    unfold axis
    rw [star_sum]
    refine sum_congr rfl fun x _ => ?_
    rw [coord_opposite h, neg_mul, cis_neg, star_mul', RCLike.star_def, Complex.conj_ofReal]
  rw [e, norm_star]

/-! ### C180 -/

/-- **C180.** Each of the three detapering functions is, at the centre of the image, the square of the sum of the kernel: one for a
kernel whose taps sum to one. -/
theorem C180_centre {npix s W os : Nat} (hn : 0 < npix) (hW : W % 2 = 1) (hos : 0 < os) {K : Nat → ℝ} {d : Nat → Nat → ℝ}
    (h : Detapers npix s K W os d) : d (npix / 2) (npix / 2) = (∑ x ∈ range s, K x) ^ 2 ∧
      (∑ x ∈ range s, K x = 1 → d (npix / 2) (npix / 2) = 1) := by
  obtain ⟨u, hv⟩ := value hW hos h
  have hc : npix / 2 < npix := Nat.div_lt_self hn (by decide)
  have e : d (npix / 2) (npix / 2) = (∑ x ∈ range s, K x) ^ 2 := by
    rw [hv _ hc _ hc, axis_centre, Complex.norm_real, Real.norm_eq_abs, abs_mul_abs_self, sq]
  exact ⟨e, fun h1 => by rw [e, h1, one_pow]⟩

/-- **C180.** Nowhere is it negative or larger than the square of the sum of the moduli of the taps, so that a kernel without negative
taps that sums to one never amplifies: the function is at most one. -/
theorem C180_bound {npix s W os : Nat} (hW : W % 2 = 1) (hos : 0 < os) {K : Nat → ℝ} {d : Nat → Nat → ℝ}
    (h : Detapers npix s K W os d) (i : Nat) (hi : i < npix) (j : Nat) (hj : j < npix) :
    0 ≤ d i j ∧ d i j ≤ (∑ x ∈ range s, |K x|) ^ 2 ∧
      ((∀ x < s, 0 ≤ K x) → ∑ x ∈ range s, K x = 1 → d i j ≤ 1) := by
  obtain ⟨u, hv⟩ := value hW hos h
  have hb : d i j ≤ (∑ x ∈ range s, |K x|) ^ 2 := by
    rw [hv i hi j hj, sq]
    exact mul_le_mul (axis_le _ _ _ _ _) (axis_le _ _ _ _ _) (norm_nonneg _) (sum_nonneg fun x _ => abs_nonneg _)
  refine ⟨?_, hb, fun hp h1 => ?_⟩
  · rw [hv i hi j hj]; positivity
  · rwa [sum_congr rfl fun x hx => abs_of_nonneg (hp x (mem_range.1 hx)), h1, one_pow] at hb

/-- **C180.** It is the same at opposite pixels of either axis and does not change when the axes are exchanged. -/
theorem C180_symmetric {npix s W os : Nat} (hW : W % 2 = 1) (hos : 0 < os) {K : Nat → ℝ} {d : Nat → Nat → ℝ}
    (h : Detapers npix s K W os d) (i : Nat) (hi : i < npix) (j : Nat) (hj : j < npix) :
    d j i = d i j ∧ (∀ i' < npix, Opposite npix i i' → d i' j = d i j) ∧ (∀ j' < npix, Opposite npix j j' → d i j' = d i j) := by
  obtain ⟨u, hv⟩ := value hW hos h
  refine ⟨?_, fun i' hi' ho => ?_, fun j' hj' ho => ?_⟩
  · rw [hv i hi j hj, hv j hj i hi, mul_comm]
  · rw [hv i hi j hj, hv i' hi' j hj, axis_opposite ho]
  · rw [hv i hi j hj, hv i hi j' hj', axis_opposite ho]

/-- **C180.** Pixels of the separable function tell all others: the product of the values at two pixels of the diagonal is the square of
the value at the pixel where their row and column meet. -/
theorem C180_product {npix s W os : Nat} (hW : W % 2 = 1) (hos : 0 < os) {K : Nat → ℝ} {d : Nat → Nat → ℝ}
    (h : Detapers npix s K W os d) (i : Nat) (hi : i < npix) (j : Nat) (hj : j < npix) : d i i * d j j = d i j ^ 2 := by
  obtain ⟨u, hv⟩ := value hW hos h
  rw [hv i hi j hj, hv i hi i hi, hv j hj j hj]
  ring

/-- The hypotheses can be met: the kernel of one tap, and pixels 1 and 3 of an image of four. -/
example : (∃ d, Detapers 4 3 (fun x => if x = 1 then 1 else 0) 1 1 d) ∧ ∑ x ∈ range 3, (if x = 1 then (1 : ℝ) else 0) = 1 ∧
    Opposite 4 1 3 := by
  have hu : uspace 1 1 = .ok fun k => (k : ℝ) / (1 : Nat) - ((1 + 2) / 2 : Nat) := by simp [uspace]
  obtain ⟨d, hd, _⟩ := dft_value 4 3 3 (fun y x => (if y = 1 then 1 else 0) * (if x = 1 then 1 else 0)) 1 1 _ hu
  exact ⟨⟨d, .dft hd⟩, by simp, rfl⟩

end Verif.Gridding
