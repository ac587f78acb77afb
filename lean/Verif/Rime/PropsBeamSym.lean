/-
C170: beams under changes of their scale, units and axes, and what rotation, pointing errors and antenna scaling do.
-/
import Verif.Rime.PropsBeam2
import Mathlib.Algebra.Module.Basic
import Mathlib.Tactic.FieldSimp

set_option autoImplicit false

namespace Verif.Rime

private theorem value_eq {cells cells' : List ((Int × Int × Int) × ℝ)} {beam beam' : Int → Int → Int → ℂ} {c : ℂ}
    (h1 : (cells'.map fun e => e.2 * ‖beam' e.1.1 e.1.2.1 e.1.2.2‖).sum =
      ‖c‖ * (cells.map fun e => e.2 * ‖beam e.1.1 e.1.2.1 e.1.2.2‖).sum)
    (h2 : (cells'.map fun e => (e.2 : ℂ) * beam' e.1.1 e.1.2.1 e.1.2.2).sum =
      c * (cells.map fun e => (e.2 : ℂ) * beam e.1.1 e.1.2.1 e.1.2.2).sum) :
    beamValue cells' beam' = c * beamValue cells beam := by
  unfold beamValue
  simp only
  rw [foldl_acc, foldl_acc, h1, h2]
  simp only [zero_add]
  generalize (cells.map fun e => e.2 * ‖beam e.1.1 e.1.2.1 e.1.2.2‖).sum = A
  generalize (cells.map fun e => (e.2 : ℂ) * beam e.1.1 e.1.2.1 e.1.2.2).sum = B
  rw [norm_mul]
  by_cases hc : c = 0
  · subst hc; simp
  have hc' : ‖c‖ ≠ 0 := norm_ne_zero_iff.2 hc
  by_cases hB : ‖B‖ = 0
  · rw [if_pos (by rw [hB, mul_zero]), if_pos hB]
    rw [norm_eq_zero.1 hB]; simp
  · rw [if_neg (mul_ne_zero hc' hB), if_neg hB, mul_div_mul_left _ _ hc', mul_assoc]

/-- **C170** A beam multiplied by a complex number gives values multiplied by it. -/
theorem C170_homogeneous (lw mh nud : Nat) (beam : Int → Int → Int → ℂ) (ext : (ℝ × ℝ) × (ℝ × ℝ)) (grid : Int → ℝ)
    (l m pa pe0 pe1 as0 as1 freq : ℝ) (c v : ℂ)
    (h : beamCubeDde lw mh nud beam ext grid l m pa pe0 pe1 as0 as1 freq = .ok v) :
    beamCubeDde lw mh nud (fun i j k => c * beam i j k) ext grid l m pa pe0 pe1 as0 as1 freq = .ok (c * v) := by
  unfold beamCubeDde at h ⊢
  split_ifs at h ⊢ with h0
  cases h
  refine congrArg Except.ok (value_eq ?_ ?_)
  · rw [← List.sum_map_mul_left]
    refine congrArg List.sum (List.map_congr_left fun e _ => ?_)
    rw [norm_mul]; ring
  · rw [← List.sum_map_mul_left]
    refine congrArg List.sum (List.map_congr_left fun e _ => ?_)
    ring

/-- **C170** The conjugate of a beam gives the conjugate values. -/
theorem C170_conjugate (lw mh nud : Nat) (beam : Int → Int → Int → ℂ) (ext : (ℝ × ℝ) × (ℝ × ℝ)) (grid : Int → ℝ)
    (l m pa pe0 pe1 as0 as1 freq : ℝ) (v : ℂ)
    (h : beamCubeDde lw mh nud beam ext grid l m pa pe0 pe1 as0 as1 freq = .ok v) :
    beamCubeDde lw mh nud (fun i j k => star (beam i j k)) ext grid l m pa pe0 pe1 as0 as1 freq = .ok (star v) := by
  unfold beamCubeDde at h ⊢
  split_ifs at h ⊢ with h0
  cases h
  refine congrArg Except.ok ?_
  unfold beamValue
  simp only
  rw [foldl_acc _ fun i j k => star (beam i j k), foldl_acc]
  simp only [zero_add, norm_star]
  have hs : ∀ L : List ((Int × Int × Int) × ℝ), (L.map fun e => (e.2 : ℂ) * star (beam e.1.1 e.1.2.1 e.1.2.2)).sum =
      star (L.map fun e => (e.2 : ℂ) * beam e.1.1 e.1.2.1 e.1.2.2).sum := by
    intro L
    induction L with
    | nil => simp
    | cons e es ih =>
      rw [List.map_cons, List.sum_cons, List.map_cons, List.sum_cons, ih, star_add, star_mul']
      simp
  rw [hs, norm_star]
  split_ifs
  · rw [star_mul']; simp
  · rw [star_mul']; simp

/-- Specification: where in the beam a source is looked up, at a frequency of the grid: moved by the pointing error, turned by
the parallactic angle and stretched by the antenna scaling. -/
noncomputable def lookedUpAt (l m pa pe0 pe1 as0 as1 : ℝ) : ℝ × ℝ :=
  (as0 * ((l + pe0) * Real.cos pa - (m + pe1) * Real.sin pa), as1 * ((l + pe0) * Real.sin pa + (m + pe1) * Real.cos pa))

/-- **C170** At frequencies within the grid, the value is that of the unrotated beam without errors at the moved, turned and
stretched direction. -/
theorem C170_directions (lw mh nud : Nat) (hnud : 2 ≤ nud) (beam : Int → Int → Int → ℂ) (ext : (ℝ × ℝ) × (ℝ × ℝ))
    (grid : Int → ℝ) (hg : Increasing grid nud) (hpos : grid ((nud : Int) - 1) ≠ 0) (l m pa pe0 pe1 as0 as1 freq : ℝ)
    (hf1 : grid 0 ≤ freq) (hf2 : freq ≤ grid ((nud : Int) - 1)) :
    beamCubeDde lw mh nud beam ext grid l m pa pe0 pe1 as0 as1 freq =
      beamCubeDde lw mh nud beam ext grid (lookedUpAt l m pa pe0 pe1 as0 as1).1 (lookedUpAt l m pa pe0 pe1 as0 as1).2
        0 0 0 1 1 freq := by
  obtain ⟨scale, w, pos, he, -, -, -, -, hin, -, -⟩ := C41_freq_grid grid nud hnud hg freq hpos
  obtain ⟨hs, -⟩ := hin hf1 hf2
  unfold beamCubeDde beamRead
  simp only [he, hs, beamCoords, lookedUpAt, Real.cos_zero, Real.sin_zero, mul_one, mul_zero, add_zero, sub_zero, zero_add]
  rw [mul_comm as0, mul_comm as1]

/-- **C170** Full turns of the parallactic angle change nothing; a half turn is a point reflection of the direction and the
pointing error. -/
theorem C170_turns (lw mh nud : Nat) (beam : Int → Int → Int → ℂ) (ext : (ℝ × ℝ) × (ℝ × ℝ)) (grid : Int → ℝ)
    (l m pa pe0 pe1 as0 as1 freq : ℝ) (k : ℤ) :
    beamCubeDde lw mh nud beam ext grid l m (pa + k * (2 * Real.pi)) pe0 pe1 as0 as1 freq =
      beamCubeDde lw mh nud beam ext grid l m pa pe0 pe1 as0 as1 freq ∧
    beamCubeDde lw mh nud beam ext grid l m (pa + Real.pi) pe0 pe1 as0 as1 freq =
      beamCubeDde lw mh nud beam ext grid (-l) (-m) pa (-pe0) (-pe1) as0 as1 freq := by
  constructor
  · unfold beamCubeDde beamRead beamCoords
    simp only [Real.cos_add_int_mul_two_pi, Real.sin_add_int_mul_two_pi]
  · have h : ∀ s, beamCoords l m s pe0 pe1 (pa + Real.pi) as0 as1 = beamCoords (-l) (-m) s (-pe0) (-pe1) pa as0 as1 := by
      intro s
      unfold beamCoords
      simp only [Real.cos_add_pi, Real.sin_add_pi, Prod.mk.injEq]
      constructor <;> ring
    unfold beamCubeDde beamRead
    simp only [h]

/-- **C170** Directions, pointing errors and extents in other units give the same values. -/
theorem C170_units (lw mh nud : Nat) (beam : Int → Int → Int → ℂ) (lo0 hi0 lo1 hi1 : ℝ) (grid : Int → ℝ)
    (l m pa pe0 pe1 as0 as1 freq k : ℝ) (hk : k ≠ 0) :
    beamCubeDde lw mh nud beam ((k * lo0, k * hi0), (k * lo1, k * hi1)) grid (k * l) (k * m) pa (k * pe0) (k * pe1) as0 as1
        freq =
      beamCubeDde lw mh nud beam ((lo0, hi0), (lo1, hi1)) grid l m pa pe0 pe1 as0 as1 freq := by
  have h1 : ∀ s, beamCoords (k * l) (k * m) s (k * pe0) (k * pe1) pa as0 as1 =
      (k * (beamCoords l m s pe0 pe1 pa as0 as1).1, k * (beamCoords l m s pe0 pe1 pa as0 as1).2) := by
    intro s
    unfold beamCoords
    simp only [Prod.mk.injEq]
    constructor <;> ring
  have h2 : ∀ (n : Nat) (lo hi v : ℝ), axisPos n (k * lo) (k * hi) (k * v) = axisPos n lo hi v := by
    intro n lo hi v
    have : (((n : Int) - 1 : Int) : ℝ) / (k * hi - k * lo) * (k * v - k * lo) =
        (((n : Int) - 1 : Int) : ℝ) / (hi - lo) * (v - lo) := by
      rw [← mul_sub, ← mul_sub]
      by_cases hd : hi - lo = 0
      · rw [hd]; simp
      · field_simp
    unfold axisPos
    simp only [this]
  unfold beamCubeDde beamRead
  simp only [h1, h2]

private theorem freq_first (grid : Int → ℝ) (nud : Nat) (hn : 2 ≤ nud) (hg : Increasing grid nud)
    (hpos : grid ((nud : Int) - 1) ≠ 0) : freqData grid nud (grid 0) = (1, 1, 0) := by
  obtain ⟨scale, w, pos, he, h1, h2, h3, h4, hin, -, -⟩ := C41_freq_grid grid nud hn hg (grid 0) hpos
  have hle : grid 0 ≤ grid ((nud : Int) - 1) := (hg 0 ((nud : Int) - 1) le_rfl (by omega) (by omega)).le
  obtain ⟨hs, hb1, hb2, hb3⟩ := hin le_rfl hle
  have hp : pos = 0 := by
    by_contra hne
    have h : grid 0 < grid pos := hg 0 pos le_rfl (by omega) (by omega)
    linarith
  subst hp
  have h : grid 0 < grid (0 + 1) := hg 0 _ le_rfl (by omega) (by omega)
  have hw : w = 1 := by
    have : (1 - w) * (grid (0 + 1) - grid 0) = 0 := by linear_combination hb3
    rcases mul_eq_zero.1 this with h' | h' <;> linarith
  rw [he, hs, hw]

private theorem freq_last (grid : Int → ℝ) (nud : Nat) (hn : 2 ≤ nud) (hg : Increasing grid nud)
    (hpos : grid ((nud : Int) - 1) ≠ 0) : freqData grid nud (grid ((nud : Int) - 1)) = (1, 0, (nud : Int) - 2) := by
  obtain ⟨scale, w, pos, he, h1, h2, h3, h4, hin, -, -⟩ := C41_freq_grid grid nud hn hg (grid ((nud : Int) - 1)) hpos
  have hle : grid 0 ≤ grid ((nud : Int) - 1) := (hg 0 ((nud : Int) - 1) le_rfl (by omega) (by omega)).le
  obtain ⟨hs, hb1, hb2, hb3⟩ := hin hle le_rfl
  have hp : pos = (nud : Int) - 2 := by
    by_contra hne
    have h : grid (pos + 1) < grid ((nud : Int) - 1) := hg (pos + 1) _ (by omega) (by omega) (by omega)
    linarith
  subst hp
  have h : grid ((nud : Int) - 2) < grid ((nud : Int) - 2 + 1) := hg _ _ (by omega) (by omega) (by omega)
  have hw : w = 0 := by
    rw [show (nud : Int) - 1 = (nud : Int) - 2 + 1 by omega] at hb3
    have : w * (grid ((nud : Int) - 2 + 1) - grid ((nud : Int) - 2)) = 0 := by linear_combination -hb3
    rcases mul_eq_zero.1 this with h' | h' <;> linarith
  rw [he, hs, hw]

/-- **C170** Frequencies outside the grid use the first or last plane, with directions (not pointing errors) scaled by the
ratio of frequencies. -/
theorem C170_frequencies (lw mh nud : Nat) (hnud : 2 ≤ nud) (beam : Int → Int → Int → ℂ) (ext : (ℝ × ℝ) × (ℝ × ℝ))
    (grid : Int → ℝ) (hg : Increasing grid nud) (hpos : grid ((nud : Int) - 1) ≠ 0) (l m pa pe0 pe1 as0 as1 freq : ℝ) :
    (freq < grid 0 → beamCubeDde lw mh nud beam ext grid l m pa pe0 pe1 as0 as1 freq =
      beamCubeDde lw mh nud beam ext grid (l * (freq / grid 0)) (m * (freq / grid 0)) pa pe0 pe1 as0 as1 (grid 0)) ∧
    (grid ((nud : Int) - 1) < freq → beamCubeDde lw mh nud beam ext grid l m pa pe0 pe1 as0 as1 freq =
      beamCubeDde lw mh nud beam ext grid (l * (freq / grid ((nud : Int) - 1))) (m * (freq / grid ((nud : Int) - 1))) pa pe0 pe1
        as0 as1 (grid ((nud : Int) - 1))) := by
  obtain ⟨scale, w, pos, he, -, -, -, -, -, h1, h2⟩ := C41_freq_grid grid nud hnud hg freq hpos
  constructor
  · intro hf
    unfold beamCubeDde beamRead
    simp only [freq_first grid nud hnud hg hpos, he, h1 hf, beamCoords, mul_one]
  · intro hf
    unfold beamCubeDde beamRead
    simp only [freq_last grid nud hnud hg hpos, he, h2 hf, beamCoords, mul_one]

/-! ### Axes in the other direction -/

private theorem axisPos_flip {n : Nat} (hn : 2 ≤ n) {lo hi : ℝ} (hne : lo ≠ hi) (v : ℝ) {E : Type*} [AddCommGroup E]
    [Module ℝ E] (f : Int → E) :
    (1 - (axisPos n hi lo v).2.2) • f ((n : Int) - 1 - (axisPos n hi lo v).1) +
        (axisPos n hi lo v).2.2 • f ((n : Int) - 1 - (axisPos n hi lo v).2.1) =
      (1 - (axisPos n lo hi v).2.2) • f (axisPos n lo hi v).1 + (axisPos n lo hi v).2.2 • f (axisPos n lo hi v).2.1 := by
  set N : Int := (n : Int) - 1 with hN
  have hN0 : (0 : ℝ) ≤ (N : ℝ) := by exact_mod_cast (by omega : (0 : Int) ≤ N)
  have hd : hi - lo ≠ 0 := sub_ne_zero.2 hne.symm
  have hd' : lo - hi ≠ 0 := sub_ne_zero.2 hne
  have hx : (N : ℝ) / (lo - hi) * (v - hi) = N - (N : ℝ) / (hi - lo) * (v - lo) := by
    field_simp
    ring
  simp only [axisPos]
  rw [← hN, hx]
  generalize (N : ℝ) / (hi - lo) * (v - lo) = y
  have hc : max 0 (min ((N : ℝ) - y) N) = N - max 0 (min y N) := by
    rcases le_total y 0 with h | h
    · rw [min_eq_right (by linarith), max_eq_right hN0, min_eq_left (by linarith), max_eq_left h]; ring
    · rcases le_total y N with h' | h'
      · rw [min_eq_left (by linarith), max_eq_right (by linarith), min_eq_left h', max_eq_right h]
      · rw [min_eq_left (by linarith), max_eq_left (by linarith), min_eq_right h', max_eq_right hN0]; ring
  rw [hc]
  have hx0 : 0 ≤ max 0 (min y (N : ℝ)) := le_max_left _ _
  have hx1 : max 0 (min y (N : ℝ)) ≤ N := max_le hN0 (min_le_right _ _)
  generalize max 0 (min y (N : ℝ)) = x at hx0 hx1
  have hfl : (⌊x⌋ : ℝ) ≤ x := Int.floor_le x
  have hlt : x < ⌊x⌋ + 1 := Int.lt_floor_add_one x
  rcases eq_or_lt_of_le hfl with he | hl
  · have h1 : ⌊(N : ℝ) - x⌋ = N - ⌊x⌋ := by
      rw [← he, Int.floor_intCast, ← Int.cast_sub, Int.floor_intCast]
    rw [h1]
    have e1 : (N : ℝ) - x - ((N - ⌊x⌋ : Int) : ℝ) = 0 := by push_cast; linarith
    have e2 : x - (⌊x⌋ : ℝ) = 0 := by linarith
    rw [e1, e2]
    simp
  · have h1 : ⌊(N : ℝ) - x⌋ = N - ⌊x⌋ - 1 := by
      rw [Int.floor_eq_iff]
      push_cast
      constructor <;> linarith
    have hlt' : ⌊x⌋ < N := by
      have : (⌊x⌋ : ℝ) < N := lt_of_lt_of_le hl hx1
      exact_mod_cast this
    have hfl0 : 0 ≤ ⌊x⌋ := Int.floor_nonneg.2 hx0
    rw [h1, min_eq_left (by omega), min_eq_left (by omega)]
    have e1 : (N : ℝ) - x - ((N - ⌊x⌋ - 1 : Int) : ℝ) = 1 - (x - ⌊x⌋) := by push_cast; ring
    rw [e1, show N - (N - ⌊x⌋ - 1) = ⌊x⌋ + 1 by ring, show N - (N - ⌊x⌋ - 1 + 1) = ⌊x⌋ by ring, sub_sub_cancel]
    exact add_comm _ _

private theorem cells_sum {E : Type*} [AddCommGroup E] [Module ℝ E] (pl pm : Int × Int × ℝ) (w : ℝ) (g : Int)
    (f : Int → Int → Int → E) :
    ((beamCells pl pm w g).map fun e => e.2 • f e.1.1 e.1.2.1 e.1.2.2).sum =
      (1 - pl.2.2) • ((1 - pm.2.2) • (w • f pl.1 pm.1 g + (1 - w) • f pl.1 pm.1 (g + 1)) +
          pm.2.2 • (w • f pl.1 pm.2.1 g + (1 - w) • f pl.1 pm.2.1 (g + 1))) +
        pl.2.2 • ((1 - pm.2.2) • (w • f pl.2.1 pm.1 g + (1 - w) • f pl.2.1 pm.1 (g + 1)) +
          pm.2.2 • (w • f pl.2.1 pm.2.1 g + (1 - w) • f pl.2.1 pm.2.1 (g + 1))) := by
  simp only [beamCells, List.map_cons, List.map_nil, List.sum_cons, List.sum_nil, smul_add, smul_smul, mul_assoc]
  abel

private theorem flip_value (cells cells' : List ((Int × Int × Int) × ℝ)) (beam beam' : Int → Int → Int → ℂ)
    (h1 : (cells'.map fun e => e.2 • ‖beam' e.1.1 e.1.2.1 e.1.2.2‖).sum =
      (cells.map fun e => e.2 • ‖beam e.1.1 e.1.2.1 e.1.2.2‖).sum)
    (h2 : (cells'.map fun e => e.2 • beam' e.1.1 e.1.2.1 e.1.2.2).sum =
      (cells.map fun e => e.2 • beam e.1.1 e.1.2.1 e.1.2.2).sum) :
    beamValue cells' beam' = beamValue cells beam := by
  have := value_eq (cells := cells) (cells' := cells') (beam := beam) (beam' := beam') (c := 1)
    (by simpa [smul_eq_mul] using h1) (by simpa [Complex.real_smul] using h2)
  rwa [one_mul] at this

/-- **C170** A cube stored with its first or second axis in the other direction, with its extents exchanged, is the same
beam. -/
theorem C170_flip (lw mh nud : Nat) (hlw : 2 ≤ lw) (hmh : 2 ≤ mh) (beam : Int → Int → Int → ℂ) (lo0 hi0 lo1 hi1 : ℝ)
    (h0 : lo0 ≠ hi0) (h1 : lo1 ≠ hi1) (grid : Int → ℝ) (l m pa pe0 pe1 as0 as1 freq : ℝ) :
    beamCubeDde lw mh nud (fun i j k => beam ((lw : Int) - 1 - i) j k) ((hi0, lo0), (lo1, hi1)) grid l m pa pe0 pe1 as0 as1
        freq =
      beamCubeDde lw mh nud beam ((lo0, hi0), (lo1, hi1)) grid l m pa pe0 pe1 as0 as1 freq ∧
    beamCubeDde lw mh nud (fun i j k => beam i ((mh : Int) - 1 - j) k) ((lo0, hi0), (hi1, lo1)) grid l m pa pe0 pe1 as0 as1
        freq =
      beamCubeDde lw mh nud beam ((lo0, hi0), (lo1, hi1)) grid l m pa pe0 pe1 as0 as1 freq := by
  have first : ∀ {E : Type} [AddCommGroup E] [Module ℝ E] (v : ℝ) (pm : Int × Int × ℝ) (w : ℝ) (g : Int)
      (f : Int → Int → Int → E),
      ((beamCells (axisPos lw hi0 lo0 v) pm w g).map fun e => e.2 • f ((lw : Int) - 1 - e.1.1) e.1.2.1 e.1.2.2).sum =
        ((beamCells (axisPos lw lo0 hi0 v) pm w g).map fun e => e.2 • f e.1.1 e.1.2.1 e.1.2.2).sum := by
    intro E _ _ v pm w g f
    rw [cells_sum _ _ _ _ fun i j k => f ((lw : Int) - 1 - i) j k, cells_sum]
    exact axisPos_flip hlw h0 v fun i => (1 - pm.2.2) • (w • f i pm.1 g + (1 - w) • f i pm.1 (g + 1)) +
      pm.2.2 • (w • f i pm.2.1 g + (1 - w) • f i pm.2.1 (g + 1))
  have second : ∀ {E : Type} [AddCommGroup E] [Module ℝ E] (v : ℝ) (pl : Int × Int × ℝ) (w : ℝ) (g : Int)
      (f : Int → Int → Int → E),
      ((beamCells pl (axisPos mh hi1 lo1 v) w g).map fun e => e.2 • f e.1.1 ((mh : Int) - 1 - e.1.2.1) e.1.2.2).sum =
        ((beamCells pl (axisPos mh lo1 hi1 v) w g).map fun e => e.2 • f e.1.1 e.1.2.1 e.1.2.2).sum := by
    intro E _ _ v pl w g f
    rw [cells_sum _ _ _ _ fun i j k => f i ((mh : Int) - 1 - j) k, cells_sum]
    have := fun i => axisPos_flip hmh h1 v fun j => w • f i j g + (1 - w) • f i j (g + 1)
    rw [this, this]
  constructor
  · unfold beamCubeDde beamRead
    split_ifs
    · rfl
    refine congrArg Except.ok (flip_value _ _ _ _ ?_ ?_)
    · exact first _ _ _ _ fun i j k => ‖beam i j k‖
    · exact first _ _ _ _ beam
  · unfold beamCubeDde beamRead
    split_ifs
    · rfl
    refine congrArg Except.ok (flip_value _ _ _ _ ?_ ?_)
    · exact second _ _ _ _ fun i j k => ‖beam i j k‖
    · exact second _ _ _ _ beam

/-- A grid of two frequencies meets the hypotheses, with a frequency inside and one outside. -/
example : Increasing (fun k => (k : ℝ) + 1) 2 ∧ (((2 : Nat) : Int) - 1 : ℝ) + 1 ≠ 0 ∧ ((0 : Int) : ℝ) + 1 ≤ 3 / 2 := by
  refine ⟨?_, by norm_num, by norm_num⟩
  intro a b ha hab hb
  have : (a : ℝ) < b := by exact_mod_cast hab
  linarith

end Verif.Rime
