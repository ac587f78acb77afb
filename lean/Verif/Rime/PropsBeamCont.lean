/-
C176: where the interpolated beam is a continuous function of the source, the parallactic angle, the pointing error, the
antenna scaling and the frequency.
-/
import Verif.Rime.PropsBeam2
import Mathlib.Analysis.Normed.Module.Basic
import Mathlib.Analysis.Complex.Basic
import Mathlib.Topology.Algebra.Order.Field
import Mathlib.Tactic.Module

set_option autoImplicit false

namespace Verif.Rime

/-! ### Piecewise linear interpolation as a sum of ramps -/

/-- The value at index zero plus, for every step of the grid, the part of the step that has been climbed. -/
noncomputable def climb {E : Type} [AddCommGroup E] [Module ℝ E] (n : Nat) (c : Nat → ℝ) (F : Nat → E) : E :=
  F 0 + ∑ k ∈ Finset.range (n - 1), c k • (F (k + 1) - F k)

/-- A number kept within zero and one. -/
noncomputable def ramp (x : ℝ) : ℝ := max 0 (min 1 x)

private theorem ramp_one {x : ℝ} (h : 1 ≤ x) : ramp x = 1 := by unfold ramp; rw [min_eq_left h]; norm_num
private theorem ramp_zero {x : ℝ} (h : x ≤ 0) : ramp x = 0 := by
  unfold ramp; rw [min_eq_right (by linarith), max_eq_left h]
private theorem ramp_mid {x : ℝ} (h0 : 0 ≤ x) (h1 : x ≤ 1) : ramp x = x := by
  unfold ramp; rw [min_eq_right h1, max_eq_right h0]

private theorem climb_at {E : Type} [AddCommGroup E] [Module ℝ E] (n : Nat) (c : Nat → ℝ) (F : Nat → E) (pos : Nat) (d : ℝ)
    (hpos : pos + 1 < n) (h1 : ∀ k < pos, c k = 1) (h2 : c pos = d) (h3 : ∀ k, pos < k → k < n - 1 → c k = 0) :
    climb n c F = (1 - d) • F pos + d • F (pos + 1) := by
  obtain ⟨r, hr⟩ : ∃ r, n - 1 = (pos + 1) + r := ⟨n - 1 - (pos + 1), by omega⟩
  unfold climb
  rw [hr, Finset.sum_range_add, Finset.sum_range_succ]
  have e1 : ∑ k ∈ Finset.range pos, c k • (F (k + 1) - F k) = F pos - F 0 := by
    rw [← Finset.sum_range_sub]
    refine Finset.sum_congr rfl fun k hk => ?_
    rw [h1 k (Finset.mem_range.1 hk), one_smul]
  have e2 : ∑ k ∈ Finset.range r, c (pos + 1 + k) • (F (pos + 1 + k + 1) - F (pos + 1 + k)) = 0 := by
    refine Finset.sum_eq_zero fun k hk => ?_
    have := Finset.mem_range.1 hk
    rw [h3 _ (by omega) (by omega), zero_smul]
  rw [e1, e2, h2]
  module

/-- The coordinate along an axis after the shift, the scaling and the clamp. -/
noncomputable def clamped (n : Nat) (lo hi v : ℝ) : ℝ :=
  max 0 (min ((((n : Int) - 1 : Int) : ℝ) / (hi - lo) * (v - lo)) (((n : Int) - 1 : Int) : ℝ))

private theorem axis_climb {E : Type} [AddCommGroup E] [Module ℝ E] {n : Nat} (hn : 2 ≤ n) (lo hi v : ℝ) (F : Int → E) :
    (1 - (axisPos n lo hi v).2.2) • F (axisPos n lo hi v).1 + (axisPos n lo hi v).2.2 • F (axisPos n lo hi v).2.1 =
      climb n (fun k => ramp (clamped n lo hi v - k)) fun k => F k := by
  have hax : axisPos n lo hi v = (⌊clamped n lo hi v⌋, min (⌊clamped n lo hi v⌋ + 1) ((n : Int) - 1),
      clamped n lo hi v - ⌊clamped n lo hi v⌋) := rfl
  have h0 : 0 ≤ clamped n lo hi v := le_max_left _ _
  have h1 : clamped n lo hi v ≤ (n : ℝ) - 1 := by
    have : clamped n lo hi v ≤ (((n : Int) - 1 : Int) : ℝ) := by
      refine max_le ?_ (min_le_right _ _)
      exact_mod_cast (by omega : (0 : Int) ≤ (n : Int) - 1)
    push_cast at this
    exact this
  rw [hax]
  generalize clamped n lo hi v = y at h0 h1
  dsimp only
  have hf0 : 0 ≤ ⌊y⌋ := Int.floor_nonneg.2 h0
  obtain ⟨p, hp⟩ := Int.eq_ofNat_of_zero_le hf0
  have hfy : (p : ℝ) ≤ y := by have := Int.floor_le y; rw [hp] at this; exact_mod_cast this
  have hfy1 : y < p + 1 := by have := Int.lt_floor_add_one y; rw [hp] at this; exact_mod_cast this
  rw [hp]
  rcases lt_or_ge (p + 1) n with h | h
  · rw [min_eq_left (by omega), climb_at n _ _ p (y - p) h]
    · push_cast; rfl
    · intro k hk
      have : (k : ℝ) + 1 ≤ p := by exact_mod_cast hk
      exact ramp_one (by linarith)
    · exact ramp_mid (by linarith) (by linarith)
    · intro k hk _
      have : (p : ℝ) + 1 ≤ k := by exact_mod_cast hk
      exact ramp_zero (by linarith)
  · have hpn : (n : ℝ) ≤ p + 1 := by exact_mod_cast h
    have hy : y = p := le_antisymm (by linarith) hfy
    have hp1 : p + 1 = n := by
      have : (p : ℝ) + 1 ≤ n := by linarith
      have : p + 1 ≤ n := by exact_mod_cast this
      omega
    have hcn : (n : Int) - 1 = p := by omega
    obtain ⟨q, rfl⟩ : ∃ q, p = q + 1 := ⟨p - 1, by omega⟩
    rw [hcn, min_eq_right (by omega), climb_at n _ _ q 1 (by omega)]
    · rw [hy]; push_cast; module
    · intro k hk
      have : (k : ℝ) + 1 ≤ q := by exact_mod_cast hk
      exact ramp_one (by rw [hy]; push_cast; linarith)
    · exact ramp_one (by rw [hy]; push_cast; linarith)
    · intro k hk hk2; omega

private theorem freq_climb {E : Type} [AddCommGroup E] [Module ℝ E] {nud : Nat} (hn : 2 ≤ nud) (grid : Int → ℝ)
    (hg : Increasing grid nud) (h0 : 0 < grid 0) (freq : ℝ) (F : Int → E) :
    (freqData grid nud freq).2.1 • F (freqData grid nud freq).2.2 +
        (1 - (freqData grid nud freq).2.1) • F ((freqData grid nud freq).2.2 + 1) =
      climb nud (fun k => ramp ((freq - grid k) / (grid (k + 1) - grid k))) (fun k => F k) ∧
    (freqData grid nud freq).1 = freq / max (grid 0) (min freq (grid ((nud : Int) - 1))) := by
  have hlast : grid 0 < grid ((nud : Int) - 1) := hg _ _ le_rfl (by omega) (by omega)
  obtain ⟨s, w, pos, he, p0, p1, w0, w1, hin, hlo, hhi⟩ :=
    C41_freq_grid grid nud hn hg freq (by linarith [hlast, h0] : grid ((nud : Int) - 1) ≠ 0)
  rw [he]
  dsimp only
  obtain ⟨p, rfl⟩ := Int.eq_ofNat_of_zero_le p0
  have hmono : ∀ a b : Int, 0 ≤ a → a ≤ b → b < nud → grid a ≤ grid b := by
    intro a b ha hab hb
    rcases lt_or_eq_of_le hab with h | rfl
    · exact (hg a b ha h hb).le
    · exact le_rfl
  have hst : ∀ k : Nat, k + 1 < nud → 0 < grid ((k : Int) + 1) - grid k := by
    intro k hk
    have := hg k (k + 1) (by omega) (by omega) (by omega)
    linarith
  rcases lt_or_ge freq (grid 0) with ha | ha
  · obtain ⟨rfl, hp, rfl⟩ := hlo ha
    have hp : p = 0 := by omega
    subst hp
    constructor
    · rw [climb_at nud _ _ 0 0 (by omega)]
      · simp
      · intro k hk; omega
      · refine ramp_zero (div_nonpos_of_nonpos_of_nonneg ?_ (hst 0 (by omega)).le)
        simpa using ha.le
      · intro k hk hk2
        refine ramp_zero (div_nonpos_of_nonpos_of_nonneg ?_ (hst k (by omega)).le)
        have := hmono 0 k le_rfl (by omega) (by omega)
        linarith
    · rw [min_eq_left (by linarith), max_eq_left ha.le]
  rcases lt_or_ge (grid ((nud : Int) - 1)) freq with hb | hb
  · obtain ⟨rfl, hp, rfl⟩ := hhi hb
    constructor
    · rw [climb_at nud _ _ p 1 (by omega)]
      · simp
      · intro k hk
        refine ramp_one ((one_le_div (hst k (by omega))).2 ?_)
        have := hmono (k + 1) ((nud : Int) - 1) (by omega) (by omega) (by omega)
        linarith
      · refine ramp_one ((one_le_div (hst p (by omega))).2 ?_)
        have := hmono (p + 1) ((nud : Int) - 1) (by omega) (by omega) (by omega)
        linarith
      · intro k hk hk2; omega
    · rw [min_eq_right hb.le, max_eq_right hlast.le]
  · obtain ⟨rfl, b1, b2, b3⟩ := hin ha hb
    have hpp : 0 < grid ((p : Int) + 1) - grid p := hst p (by omega)
    have hd : (freq - grid p) / (grid ((p : Int) + 1) - grid p) = 1 - w := by
      rw [div_eq_iff hpp.ne', ← b3]
      ring
    constructor
    · rw [climb_at nud _ _ p (1 - w) (by omega)]
      · rw [sub_sub_cancel]; push_cast; rfl
      · intro k hk
        refine ramp_one ((one_le_div (hst k (by omega))).2 ?_)
        have := hmono (k + 1) p (by omega) (by omega) (by omega)
        linarith
      · show ramp ((freq - grid p) / (grid ((p : Int) + 1) - grid p)) = 1 - w
        rw [hd]
        exact ramp_mid (by linarith) (by linarith)
      · intro k hk hk2
        refine ramp_zero (div_nonpos_of_nonpos_of_nonneg ?_ (hst k (by omega)).le)
        have := hmono (p + 1) k (by omega) (by omega) (by omega)
        linarith
    · rw [min_eq_left hb, max_eq_right ha, div_self (by linarith)]

/-- The ratio by which source coordinates are scaled. -/
noncomputable def freqRatio (grid : Int → ℝ) (nud : Nat) (freq : ℝ) : ℝ :=
  freq / max (grid 0) (min freq (grid ((nud : Int) - 1)))

/-- The weighted sum over the cells read, as nested sums of ramps. The parameters are, in order, l, m, the parallactic
angle, the two pointing errors, the two antenna scalings and the frequency. -/
noncomputable def smooth {E : Type} [AddCommGroup E] [Module ℝ E] (lw mh nud : Nat) (ext : (ℝ × ℝ) × (ℝ × ℝ))
    (grid : Int → ℝ) (F : Int → Int → Int → E) (p : Fin 8 → ℝ) : E :=
  climb lw (fun i => ramp (clamped lw ext.1.1 ext.1.2
      (beamCoords (p 0) (p 1) (freqRatio grid nud (p 7)) (p 3) (p 4) (p 2) (p 5) (p 6)).1 - i)) fun i =>
    climb mh (fun j => ramp (clamped mh ext.2.1 ext.2.2
        (beamCoords (p 0) (p 1) (freqRatio grid nud (p 7)) (p 3) (p 4) (p 2) (p 5) (p 6)).2 - j)) fun j =>
      climb nud (fun k => ramp ((p 7 - grid k) / (grid (k + 1) - grid k))) fun k => F i j k

private theorem cells_smooth {E : Type} [AddCommGroup E] [Module ℝ E] (lw mh nud : Nat) (hlw : 2 ≤ lw) (hmh : 2 ≤ mh)
    (hnud : 2 ≤ nud) (ext : (ℝ × ℝ) × (ℝ × ℝ)) (grid : Int → ℝ) (hg : Increasing grid nud) (h0 : 0 < grid 0)
    (F : Int → Int → Int → E) (p : Fin 8 → ℝ) :
    ((beamRead lw mh nud ext grid (p 0) (p 1) (p 2) (p 3) (p 4) (p 5) (p 6) (p 7)).map
      fun e => e.2 • F e.1.1 e.1.2.1 e.1.2.2).sum = smooth lw mh nud ext grid F p := by
  unfold smooth beamRead
  have hs := (freq_climb hnud grid hg h0 (p 7) (F 0 0)).2
  rw [show freqRatio grid nud (p 7) = (freqData grid nud (p 7)).1 from hs.symm]
  dsimp only
  generalize beamCoords (p 0) (p 1) (freqData grid nud (p 7)).1 (p 3) (p 4) (p 2) (p 5) (p 6) = v
  rw [← axis_climb hlw ext.1.1 ext.1.2 v.1 (fun i => climb mh (fun j => ramp (clamped mh ext.2.1 ext.2.2 v.2 - j)) fun j =>
      climb nud (fun k => ramp ((p 7 - grid k) / (grid (k + 1) - grid k))) fun k => F i j k)]
  have hm : ∀ i : Int, (climb mh (fun j => ramp (clamped mh ext.2.1 ext.2.2 v.2 - j)) fun j =>
      climb nud (fun k => ramp ((p 7 - grid k) / (grid (k + 1) - grid k))) fun k => F i j k) = _ := fun i =>
    (axis_climb hmh ext.2.1 ext.2.2 v.2 fun j =>
      climb nud (fun k => ramp ((p 7 - grid k) / (grid (k + 1) - grid k))) fun k => F i j k).symm
  have hf : ∀ i j : Int, (climb nud (fun k => ramp ((p 7 - grid k) / (grid (k + 1) - grid k))) fun k => F i j k) = _ :=
    fun i j => (freq_climb hnud grid hg h0 (p 7) (F i j)).1.symm
  simp only [hm]
  simp only [hf]
  generalize axisPos lw ext.1.1 ext.1.2 v.1 = pl
  generalize axisPos mh ext.2.1 ext.2.2 v.2 = pm
  generalize (freqData grid nud (p 7)).2.1 = w
  generalize (freqData grid nud (p 7)).2.2 = g
  simp only [beamCells, List.map_cons, List.map_nil, List.sum_cons, List.sum_nil]
  module

private theorem ramp_cont : Continuous ramp := by
  unfold ramp
  fun_prop

private theorem ratio_cont (grid : Int → ℝ) (nud : Nat) (h0 : 0 < grid 0) : Continuous (freqRatio grid nud) := by
  unfold freqRatio
  refine continuous_id.div (by fun_prop) fun x => ?_
  exact (lt_of_lt_of_le h0 (le_max_left _ _)).ne'

private theorem climb_cont {E : Type} [NormedAddCommGroup E] [NormedSpace ℝ E] {X : Type} [TopologicalSpace X] (n : Nat)
    (c : X → Nat → ℝ) (F : X → Nat → E) (hc : ∀ k, Continuous fun x => c x k) (hF : ∀ k, Continuous fun x => F x k) :
    Continuous fun x => climb n (c x) (F x) := by
  unfold climb
  exact (hF 0).add (continuous_finsetSum _ fun k _ => (hc k).smul ((hF (k + 1)).sub (hF k)))

private theorem smooth_cont {E : Type} [NormedAddCommGroup E] [NormedSpace ℝ E] (lw mh nud : Nat)
    (ext : (ℝ × ℝ) × (ℝ × ℝ)) (grid : Int → ℝ) (h0 : 0 < grid 0) (F : Int → Int → Int → E) :
    Continuous (smooth lw mh nud ext grid F) := by
  have hr : Continuous fun p : Fin 8 → ℝ => freqRatio grid nud (p 7) :=
    (ratio_cont grid nud h0).comp (continuous_apply 7)
  have h1 : Continuous fun p : Fin 8 → ℝ =>
      (beamCoords (p 0) (p 1) (freqRatio grid nud (p 7)) (p 3) (p 4) (p 2) (p 5) (p 6)).1 := by
    simp only [beamCoords]
    fun_prop
  have h2 : Continuous fun p : Fin 8 → ℝ =>
      (beamCoords (p 0) (p 1) (freqRatio grid nud (p 7)) (p 3) (p 4) (p 2) (p 5) (p 6)).2 := by
    simp only [beamCoords]
    fun_prop
  have hcl : ∀ (n : Nat) (lo hi : ℝ), Continuous (clamped n lo hi) := by
    intro n lo hi; unfold clamped; fun_prop
  unfold smooth
  refine climb_cont lw _ _ (fun i => ramp_cont.comp (((hcl _ _ _).comp h1).sub continuous_const)) fun i => ?_
  refine climb_cont mh _ _ (fun j => ramp_cont.comp (((hcl _ _ _).comp h2).sub continuous_const)) fun j => ?_
  refine climb_cont nud _ _ (fun k => ramp_cont.comp ?_) fun k => continuous_const
  exact ((continuous_apply 7).sub continuous_const).div_const _

/-- The beam value in terms of the two sums. -/
noncomputable def blend (A : ℝ) (B : ℂ) : ℂ := if ‖B‖ = 0 then B * A else B * ((A / ‖B‖ : ℝ) : ℂ)

private theorem dde_blend (lw mh nud : Nat) (hlw : 2 ≤ lw) (hmh : 2 ≤ mh) (hnud : 2 ≤ nud) (beam : Int → Int → Int → ℂ)
    (ext : (ℝ × ℝ) × (ℝ × ℝ)) (grid : Int → ℝ) (hg : Increasing grid nud) (h0 : 0 < grid 0) (p : Fin 8 → ℝ) :
    beamCubeDde lw mh nud beam ext grid (p 0) (p 1) (p 2) (p 3) (p 4) (p 5) (p 6) (p 7) =
      .ok (blend (smooth lw mh nud ext grid (fun i j k => ‖beam i j k‖) p) (smooth lw mh nud ext grid beam p)) := by
  unfold beamCubeDde
  rw [if_neg (by omega)]
  refine congrArg Except.ok ?_
  rw [← cells_smooth lw mh nud hlw hmh hnud ext grid hg h0 beam p,
    ← cells_smooth lw mh nud hlw hmh hnud ext grid hg h0 (fun i j k => ‖beam i j k‖) p]
  unfold beamValue blend
  simp only
  rw [foldl_acc]
  simp only [zero_add, smul_eq_mul, Complex.real_smul]

/-! ### The property -/

/-- Specification: the value of a correlation of the beam as a function of l, m, the parallactic angle, the two pointing
errors, the two antenna scalings and the frequency (in this order); zero if the beam is rejected. -/
noncomputable def beamAt (lw mh nud : Nat) (beam : Int → Int → Int → ℂ) (ext : (ℝ × ℝ) × (ℝ × ℝ)) (grid : Int → ℝ)
    (p : Fin 8 → ℝ) : ℂ :=
  match beamCubeDde lw mh nud beam ext grid (p 0) (p 1) (p 2) (p 3) (p 4) (p 5) (p 6) (p 7) with
  | .ok v => v
  | .error _ => 0

private theorem beamAt_eq (lw mh nud : Nat) (hlw : 2 ≤ lw) (hmh : 2 ≤ mh) (hnud : 2 ≤ nud) (beam : Int → Int → Int → ℂ)
    (ext : (ℝ × ℝ) × (ℝ × ℝ)) (grid : Int → ℝ) (hg : Increasing grid nud) (h0 : 0 < grid 0) :
    beamAt lw mh nud beam ext grid = fun p =>
      blend (smooth lw mh nud ext grid (fun i j k => ‖beam i j k‖) p) (smooth lw mh nud ext grid beam p) := by
  funext p
  unfold beamAt
  rw [dde_blend lw mh nud hlw hmh hnud beam ext grid hg h0 p]

/-- **C176, partial** (the full statement would be continuity everywhere, which `C176_violated` refutes.) The beam is
continuous, jointly in all of its arguments, wherever its value is not zero: across the grid lines of the cube, at its
edges, and across and beyond the ends of its frequency grid. -/
theorem C176_continuous_partial (lw mh nud : Nat) (hlw : 2 ≤ lw) (hmh : 2 ≤ mh) (hnud : 2 ≤ nud)
    (beam : Int → Int → Int → ℂ) (ext : (ℝ × ℝ) × (ℝ × ℝ)) (grid : Int → ℝ) (hg : Increasing grid nud) (h0 : 0 < grid 0)
    (p : Fin 8 → ℝ) (hp : beamAt lw mh nud beam ext grid p ≠ 0) :
    ContinuousAt (beamAt lw mh nud beam ext grid) p := by
  rw [beamAt_eq lw mh nud hlw hmh hnud beam ext grid hg h0] at hp ⊢
  have hA := smooth_cont lw mh nud ext grid h0 fun i j k => ‖beam i j k‖
  have hB := smooth_cont lw mh nud ext grid h0 beam
  generalize smooth lw mh nud ext grid (fun i j k => ‖beam i j k‖) = A at hA hp
  generalize smooth lw mh nud ext grid beam = B at hB hp
  have hB0 : B p ≠ 0 := by
    intro h
    apply hp
    simp [blend, h]
  have hev : ∀ᶠ q in nhds p, B q ≠ 0 := hB.continuousAt.eventually_ne hB0
  have hc : ContinuousAt (fun q => B q * ((A q / ‖B q‖ : ℝ) : ℂ)) p := by
    refine hB.continuousAt.mul (Complex.continuous_ofReal.continuousAt.comp ?_)
    exact hA.continuousAt.div hB.norm.continuousAt (norm_ne_zero_iff.2 hB0)
  refine hc.congr (hev.mono fun q hq => ?_)
  show _ = blend (A q) (B q)
  unfold blend
  rw [if_neg (norm_ne_zero_iff.2 hq)]

/-- The two sums: the mean of the moduli is at least the modulus of the mean and not negative. -/
private theorem smooth_norm (lw mh nud : Nat) (hlw : 2 ≤ lw) (hmh : 2 ≤ mh) (hnud : 2 ≤ nud) (beam : Int → Int → Int → ℂ)
    (ext : (ℝ × ℝ) × (ℝ × ℝ)) (grid : Int → ℝ) (hg : Increasing grid nud) (h0 : 0 < grid 0) (p : Fin 8 → ℝ) :
    0 ≤ smooth lw mh nud ext grid (fun i j k => ‖beam i j k‖) p := by
  have hlast : grid 0 < grid ((nud : Int) - 1) := hg _ _ le_rfl (by omega) (by omega)
  have hread := C42_reads_inside lw mh nud hlw hmh hnud ext grid hg (by linarith : grid ((nud : Int) - 1) ≠ 0)
    (p 0) (p 1) (p 2) (p 3) (p 4) (p 5) (p 6) (p 7)
  rw [← cells_smooth lw mh nud hlw hmh hnud ext grid hg h0]
  refine List.sum_nonneg fun y hy => ?_
  obtain ⟨e, he, rfl⟩ := List.mem_map.1 hy
  exact mul_nonneg (hread.2.1 e he).2.2.2 (norm_nonneg _)

private theorem blend_norm {A : ℝ} (hA : 0 ≤ A) (B : ℂ) : ‖blend A B‖ ≤ A := by
  unfold blend
  split_ifs with h
  · rw [norm_mul, h, zero_mul]; exact hA
  · rw [norm_mul, Complex.norm_real, Real.norm_of_nonneg (div_nonneg hA (norm_nonneg _)), mul_div_cancel₀ _ h]

/-- **C176, partial** It is also continuous where every cell that has weight is zero: beams that fade to zero at their
edge fade continuously. -/
theorem C176_fades_partial (lw mh nud : Nat) (hlw : 2 ≤ lw) (hmh : 2 ≤ mh) (hnud : 2 ≤ nud)
    (beam : Int → Int → Int → ℂ) (ext : (ℝ × ℝ) × (ℝ × ℝ)) (grid : Int → ℝ) (hg : Increasing grid nud) (h0 : 0 < grid 0)
    (p : Fin 8 → ℝ)
    (hp : ∀ e ∈ beamRead lw mh nud ext grid (p 0) (p 1) (p 2) (p 3) (p 4) (p 5) (p 6) (p 7),
      e.2 = 0 ∨ beam e.1.1 e.1.2.1 e.1.2.2 = 0) :
    beamAt lw mh nud beam ext grid p = 0 ∧ ContinuousAt (beamAt lw mh nud beam ext grid) p := by
  rw [beamAt_eq lw mh nud hlw hmh hnud beam ext grid hg h0]
  have hA0 : smooth lw mh nud ext grid (fun i j k => ‖beam i j k‖) p = 0 := by
    rw [← cells_smooth lw mh nud hlw hmh hnud ext grid hg h0]
    refine List.sum_eq_zero fun y hy => ?_
    obtain ⟨e, he, rfl⟩ := List.mem_map.1 hy
    rcases hp e he with h | h <;> simp [h]
  have hA := smooth_cont lw mh nud ext grid h0 fun i j k => ‖beam i j k‖
  have hnn := smooth_norm lw mh nud hlw hmh hnud beam ext grid hg h0
  generalize smooth lw mh nud ext grid (fun i j k => ‖beam i j k‖) = A at hA hA0 hnn
  generalize smooth lw mh nud ext grid beam = B
  have hz : blend (A p) (B p) = 0 := by
    have := blend_norm (hnn p) (B p)
    rw [hA0] at this
    rw [hA0]
    exact norm_le_zero_iff.1 this
  refine ⟨hz, ?_⟩
  show Filter.Tendsto _ _ (nhds (blend (A p) (B p)))
  rw [hz]
  refine squeeze_zero_norm (fun q => blend_norm (hnn q) (B q)) ?_
  have := hA.continuousAt (x := p)
  unfold ContinuousAt at this
  rwa [hA0] at this

private theorem sum_zero (l : List ℝ) (h : ∀ x ∈ l, 0 ≤ x) (hs : l.sum = 0) : ∀ x ∈ l, x = 0 := by
  induction l with
  | nil => intro x hx; simp at hx
  | cons a as ih =>
    have h1 : 0 ≤ a := h a (by simp)
    have h2 : 0 ≤ as.sum := List.sum_nonneg fun x hx => h x (by simp [hx])
    rw [List.sum_cons] at hs
    intro x hx
    rcases List.mem_cons.1 hx with rfl | hx
    · linarith
    · exact ih (fun x hx => h x (by simp [hx])) (by linarith) x hx

/-- **C176** Beams whose values all lie strictly on one side of a line through zero, e.g. with positive real parts, are
continuous everywhere. -/
theorem C176_half_plane (lw mh nud : Nat) (hlw : 2 ≤ lw) (hmh : 2 ≤ mh) (hnud : 2 ≤ nud)
    (beam : Int → Int → Int → ℂ) (ext : (ℝ × ℝ) × (ℝ × ℝ)) (grid : Int → ℝ) (hg : Increasing grid nud) (h0 : 0 < grid 0)
    (u : ℂ) (hu : ∀ i j k : Int, 0 ≤ i → i < lw → 0 ≤ j → j < mh → 0 ≤ k → k < nud → 0 < (star u * beam i j k).re) :
    Continuous (beamAt lw mh nud beam ext grid) := by
  rw [continuous_iff_continuousAt]
  intro p
  refine C176_continuous_partial lw mh nud hlw hmh hnud beam ext grid hg h0 p fun hz => ?_
  have hlast : grid 0 < grid ((nud : Int) - 1) := hg _ _ le_rfl (by omega) (by omega)
  obtain ⟨z, hz1, hz2⟩ := C42_modulus lw mh nud hlw hmh hnud beam ext grid hg (by linarith : grid ((nud : Int) - 1) ≠ 0)
    (p 0) (p 1) (p 2) (p 3) (p 4) (p 5) (p 6) (p 7)
  have hread := C42_reads_inside lw mh nud hlw hmh hnud ext grid hg (by linarith : grid ((nud : Int) - 1) ≠ 0)
    (p 0) (p 1) (p 2) (p 3) (p 4) (p 5) (p 6) (p 7)
  unfold beamAt at hz
  rw [hz1] at hz
  dsimp only at hz
  subst hz
  generalize beamRead lw mh nud ext grid (p 0) (p 1) (p 2) (p 3) (p 4) (p 5) (p 6) (p 7) = cells at hz2 hread
  obtain ⟨-, hin, hsum⟩ := hread
  have hre : ∀ e ∈ cells, 0 < (star u * beam e.1.1 e.1.2.1 e.1.2.2).re ∧ 0 ≤ e.2 := by
    intro e he
    obtain ⟨⟨a1, a2⟩, ⟨a3, a4⟩, ⟨a5, a6⟩, a7⟩ := hin e he
    exact ⟨hu _ _ _ a1 a2 a3 a4 a5 a6, a7⟩
  have hpos : 0 < (cells.map fun e => e.2 * (star u * beam e.1.1 e.1.2.1 e.1.2.2).re).sum := by
    refine lt_of_le_of_ne (List.sum_nonneg fun y hy => ?_) fun hc => ?_
    · obtain ⟨e, he, rfl⟩ := List.mem_map.1 hy
      exact mul_nonneg (hre e he).2 (hre e he).1.le
    · have hall : ∀ e ∈ cells, e.2 = 0 := by
        intro e he
        have := sum_zero _ (fun y hy => by
          obtain ⟨e, he, rfl⟩ := List.mem_map.1 hy
          exact mul_nonneg (hre e he).2 (hre e he).1.le) hc.symm _ (List.mem_map_of_mem he)
        exact (mul_eq_zero.1 this).resolve_right (hre e he).1.ne'
      have : (cells.map Prod.snd).sum = 0 := by
        refine List.sum_eq_zero fun y hy => ?_
        obtain ⟨e, he, rfl⟩ := List.mem_map.1 hy
        exact hall e he
      rw [this] at hsum
      exact zero_ne_one hsum
  have hlin : ∀ L : List ((Int × Int × Int) × ℝ),
      (star u * (L.map fun e => (e.2 : ℂ) * beam e.1.1 e.1.2.1 e.1.2.2).sum).re =
        (L.map fun e => e.2 * (star u * beam e.1.1 e.1.2.1 e.1.2.2).re).sum := by
    intro L
    induction L with
    | nil => simp
    | cons e es ih =>
      rw [List.map_cons, List.sum_cons, List.map_cons, List.sum_cons, mul_add, Complex.add_re, ih]
      congr 1
      rw [mul_left_comm, Complex.re_ofReal_mul]
  rcases hz2 with ⟨hB, -⟩ | hA
  · have := hlin cells
    rw [hB, mul_zero, Complex.zero_re] at this
    linarith
  · rw [norm_zero] at hA
    have hzero : ∀ e ∈ cells, e.2 * (star u * beam e.1.1 e.1.2.1 e.1.2.2).re = 0 := by
      intro e he
      have := sum_zero _ (fun y hy => by
        obtain ⟨e, he, rfl⟩ := List.mem_map.1 hy
        exact mul_nonneg (hre e he).2 (norm_nonneg _)) hA.symm _ (List.mem_map_of_mem he)
      rcases mul_eq_zero.1 this with h | h
      · rw [h, zero_mul]
      · rw [norm_eq_zero.1 h]; simp
    have : (cells.map fun e => e.2 * (star u * beam e.1.1 e.1.2.1 e.1.2.2).re).sum = 0 := by
      refine List.sum_eq_zero fun y hy => ?_
      obtain ⟨e, he, rfl⟩ := List.mem_map.1 hy
      exact hzero e he
    linarith

/-- **C176** Beams of non-negative real numbers (voltage patterns, powers) are continuous everywhere. -/
theorem C176_nonnegative (lw mh nud : Nat) (hlw : 2 ≤ lw) (hmh : 2 ≤ mh) (hnud : 2 ≤ nud)
    (x : Int → Int → Int → ℝ) (ext : (ℝ × ℝ) × (ℝ × ℝ)) (grid : Int → ℝ) (hg : Increasing grid nud) (h0 : 0 < grid 0)
    (hx : ∀ i j k : Int, 0 ≤ x i j k) :
    Continuous (beamAt lw mh nud (fun i j k => (x i j k : ℂ)) ext grid) := by
  have hlast : grid 0 < grid ((nud : Int) - 1) := hg _ _ le_rfl (by omega) (by omega)
  have he : beamAt lw mh nud (fun i j k => (x i j k : ℂ)) ext grid = fun p => ((smooth lw mh nud ext grid x p : ℝ) : ℂ) := by
    funext p
    have hread := C42_reads_inside lw mh nud hlw hmh hnud ext grid hg (by linarith : grid ((nud : Int) - 1) ≠ 0)
      (p 0) (p 1) (p 2) (p 3) (p 4) (p 5) (p 6) (p 7)
    unfold beamAt beamCubeDde
    rw [if_neg (by omega)]
    dsimp only
    rw [← cells_smooth lw mh nud hlw hmh hnud ext grid hg h0]
    exact beamValue_nonneg x fun e he => ⟨rfl, hx _ _ _, (hread.2.1 e he).2.2.2⟩
  rw [he]
  exact Complex.continuous_ofReal.comp (smooth_cont lw mh nud ext grid h0 x)

/-- A cube of two by two by two cells that changes its sign along l. -/
def signCube : Int → Int → Int → ℂ := fun i _ _ => if i = 0 then 1 else -1

/-- Two beam frequencies. -/
def twoFreqs : Int → ℝ := fun k => k + 1

private theorem twoFreqs_increasing : Increasing twoFreqs 2 := by
  intro i j _ hij _
  have : (i : ℝ) < j := by exact_mod_cast hij
  unfold twoFreqs
  linarith

/-- The arguments of a source at `l` with no rotation, pointing error or scaling, at the first beam frequency. -/
def alongL (l : ℝ) : Fin 8 → ℝ := ![l, 0, 0, 0, 0, 1, 1, 1]

private theorem sign_value (l : ℝ) (h0 : 0 ≤ l) (h1 : l < 1) :
    beamAt 2 2 2 signCube ((0, 1), (0, 1)) twoFreqs (alongL l) = blend 1 ((1 - 2 * l : ℝ) : ℂ) := by
  have hf0 : ⌊l⌋ = 0 := Int.floor_eq_zero_iff.2 ⟨h0, h1⟩
  obtain ⟨s, w, pos, he, p0, p1, w0, w1, hin, -, -⟩ := C41_freq_grid twoFreqs 2 le_rfl twoFreqs_increasing 1
    (by norm_num [twoFreqs])
  obtain ⟨rfl, -, -, -⟩ := hin (by norm_num [twoFreqs]) (by norm_num [twoFreqs])
  have a1 : axisPos 2 0 1 l = (0, 1, l) := by
    simp only [axisPos]
    norm_num
    rw [min_eq_left h1.le, max_eq_right h0, hf0]
    norm_num
    exact ⟨h1, h0, h1⟩
  have a2 : axisPos 2 0 1 0 = (0, 1, 0) := by
    simp only [axisPos]
    norm_num
  unfold beamAt beamCubeDde
  rw [if_neg (by omega)]
  dsimp only
  unfold beamRead
  simp only [alongL, Matrix.cons_val_zero, Matrix.cons_val_one, Matrix.cons_val, he, beamCoords, Real.cos_zero, Real.sin_zero,
    mul_one, mul_zero, add_zero, sub_zero, a1, a2]
  unfold beamValue blend
  simp only
  rw [foldl_acc]
  simp only [beamCells, List.map_cons, List.map_nil, List.sum_cons, List.sum_nil, signCube, zero_add, if_true, one_ne_zero,
    if_false, norm_one, norm_neg, mul_one, mul_zero, add_zero, sub_zero, zero_mul, Complex.ofReal_zero]
  have e1 : (1 - l) * w + (l * w + ((1 - l) * (1 - w) + l * (1 - w))) = 1 := by ring
  have e2 : (((1 - l) * w : ℝ) : ℂ) + (((l * w : ℝ) : ℂ) * -1 + ((((1 - l) * (1 - w) : ℝ) : ℂ) + ((l * (1 - w) : ℝ) : ℂ) * -1)) =
      ((1 - 2 * l : ℝ) : ℂ) := by push_cast; ring
  rw [e1, e2]

/-- **C176, violated** Where neighbouring cells cancel, the beam jumps: over a cube with values 1 and −1 the value is 1 on
one side of the middle, 0 in the middle and −1 on the other side, where interpolation of the values would pass through zero
gradually. -/
theorem C176_violated :
    (∀ l : ℝ, 0 ≤ l → l < 1 / 2 → beamAt 2 2 2 signCube ((0, 1), (0, 1)) twoFreqs (alongL l) = 1) ∧
    beamAt 2 2 2 signCube ((0, 1), (0, 1)) twoFreqs (alongL (1 / 2)) = 0 ∧
    (∀ l : ℝ, 1 / 2 < l → l < 1 → beamAt 2 2 2 signCube ((0, 1), (0, 1)) twoFreqs (alongL l) = -1) ∧
    ¬ ContinuousAt (beamAt 2 2 2 signCube ((0, 1), (0, 1)) twoFreqs) (alongL (1 / 2)) := by
  have hlow : ∀ l : ℝ, 0 ≤ l → l < 1 / 2 → beamAt 2 2 2 signCube ((0, 1), (0, 1)) twoFreqs (alongL l) = 1 := by
    intro l h0 h1
    rw [sign_value l h0 (by linarith)]
    have hp : 0 < 1 - 2 * l := by linarith
    unfold blend
    rw [Complex.norm_real, Real.norm_of_nonneg hp.le, if_neg hp.ne', ← Complex.ofReal_mul, mul_one_div_cancel hp.ne',
      Complex.ofReal_one]
  have hmid : beamAt 2 2 2 signCube ((0, 1), (0, 1)) twoFreqs (alongL (1 / 2)) = 0 := by
    rw [sign_value (1 / 2) (by norm_num) (by norm_num)]
    norm_num [blend]
  refine ⟨hlow, hmid, ?_, ?_⟩
  · intro l h0 h1
    rw [sign_value l (by linarith) h1]
    have hp : 1 - 2 * l < 0 := by linarith
    unfold blend
    rw [Complex.norm_real, Real.norm_of_nonpos hp.le, if_neg (neg_ne_zero.2 hp.ne), ← Complex.ofReal_mul]
    rw [show (1 - 2 * l) * (1 / -(1 - 2 * l)) = -1 from by rw [one_div, inv_neg, mul_neg, mul_inv_cancel₀ hp.ne]]
    norm_num
  · intro hc
    have hseq : Continuous alongL := by
      refine continuous_pi fun i => ?_
      unfold alongL
      fin_cases i <;> simp <;> fun_prop
    have hc2 : ContinuousAt (fun l => beamAt 2 2 2 signCube ((0, 1), (0, 1)) twoFreqs (alongL l)) (1 / 2) :=
      ContinuousAt.comp (f := alongL) hc hseq.continuousAt
    obtain ⟨δ, hδ, h⟩ := Metric.continuousAt_iff.1 hc2 1 one_pos
    have h1 : max 0 (1 / 2 - δ / 2) < 1 / 2 := max_lt (by norm_num) (by linarith)
    have h2 : (0 : ℝ) ≤ max 0 (1 / 2 - δ / 2) := le_max_left _ _
    have h3 : 1 / 2 - δ / 2 ≤ max 0 (1 / 2 - δ / 2) := le_max_right _ _
    have := h (x := max 0 (1 / 2 - δ / 2)) (by rw [Real.dist_eq, abs_lt]; constructor <;> linarith)
    rw [hlow _ h2 h1, hmid] at this
    simp at this

/-- Non-vacuity: the cube of the violation meets the hypotheses of the partial theorems, its value at the first quarter is
not zero, and a cube of positive values is continuous. -/
example : Increasing twoFreqs 2 ∧ 0 < twoFreqs 0 ∧
    beamAt 2 2 2 signCube ((0, 1), (0, 1)) twoFreqs (alongL (1 / 4)) ≠ 0 ∧
    Continuous (beamAt 2 2 2 (fun i j k => (((i ^ 2 + j ^ 2 + k ^ 2 : Int) : ℝ) : ℂ)) ((-1, 1), (-1, 1)) twoFreqs) := by
  have h0 : 0 < twoFreqs 0 := by norm_num [twoFreqs]
  refine ⟨twoFreqs_increasing, h0, ?_, ?_⟩
  · rw [C176_violated.1 _ (by norm_num) (by norm_num)]
    exact one_ne_zero
  · exact C176_nonnegative 2 2 2 le_rfl le_rfl le_rfl (fun i j k => ((i ^ 2 + j ^ 2 + k ^ 2 : Int) : ℝ)) _ _
      twoFreqs_increasing h0 fun i j k => by positivity

end Verif.Rime
