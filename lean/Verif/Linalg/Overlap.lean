/-
C72: model of `overlaps_with` (africanus/linalg/geometry.py) and its properties.
-/
import Verif.Linalg.HullProps
import Mathlib.Analysis.Real.Sqrt

set_option autoImplicit false

namespace Verif.Linalg.Geometry

/-! ### Model -/

/-- `np.min` of a non-empty list of reals (linalg/geometry.py:411-440). -/
noncomputable def realMin : List ℝ → ℝ
  | [] => 0
  | a :: l => l.foldl min a

/-- `np.max` of a non-empty list of reals (linalg/geometry.py:411-440). -/
noncomputable def realMax : List ℝ → ℝ
  | [] => 0
  | a :: l => l.foldl max a

/-- `np.linalg.norm` of one row (geometry.py:422). -/
noncomputable def norm2 (n : Pt) : ℝ := Real.sqrt ((n.1 : ℝ) ^ 2 + (n.2 : ℝ) ^ 2)

/-- The projections of the corners on a normal divided by `s` (geometry.py:431, 434). -/
noncomputable def projections (c : List Pt) (n : Pt) (s : ℝ) : List ℝ :=
  c.map fun v => (v.1 : ℝ) * ((n.1 : ℝ) / s) + (v.2 : ℝ) * ((n.2 : ℝ) / s)

/-- One normal separates the hulls by more than the distance (geometry.py:430-441). -/
def Separates (c1 c2 : List Pt) (d s : ℝ) (n : Pt) : Prop :=
  realMin (projections c2 n s) - realMax (projections c1 n s) > d ∨ realMin (projections c1 n s) - realMax (projections c2 n s) > d

/-- `overlaps_with` (geometry.py:411-442) on the corners of the two hulls. All normals are divided by the norm of the third one
(`norms[None, 2]`, line 423), which does not exist if there are fewer than three. Edges have positive length, so that there is no
division by zero. -/
noncomputable def overlapsWith (c1 c2 : List Pt) (d : ℝ) : Except PyErr Bool :=
  let normals := lnormals c1 ++ lnormals c2
  match normals[2]? with
  | none => .error .indexError
  | some n2 => by
    classical
    exact .ok (decide (¬ ∃ n ∈ normals, Separates c1 c2 d (norm2 n2) n))

/-! ### Lemmas -/

/-- The integer projection (linalg/geometry.py:411-440). -/
def dot (n v : Pt) : Int := v.1 * n.1 + v.2 * n.2

theorem realMin_map (l : List Int) (s : ℝ) (hs : 0 ≤ s) (hne : l ≠ []) : realMin (l.map fun a : Int => (a : ℝ) / s) = (listMin l : ℝ) / s := by
  cases l with
  | nil => exact absurd rfl hne
  | cons a l =>
    clear hne
    simp only [List.map_cons, realMin, listMin]
    induction l generalizing a with
    | nil => rfl
    | cons b l ih =>
      simp only [List.map_cons, List.foldl_cons]
      rw [← ih (min a b)]
      congr 1
      push_cast
      rcases le_total (a : ℝ) b with h | h
      · rw [min_eq_left h, min_eq_left (div_le_div_of_nonneg_right h hs)]
      · rw [min_eq_right h, min_eq_right (div_le_div_of_nonneg_right h hs)]

theorem realMax_map (l : List Int) (s : ℝ) (hs : 0 ≤ s) (hne : l ≠ []) : realMax (l.map fun a : Int => (a : ℝ) / s) = (listMax l : ℝ) / s := by
  cases l with
  | nil => exact absurd rfl hne
  | cons a l =>
    clear hne
    simp only [List.map_cons, realMax, listMax]
    induction l generalizing a with
    | nil => rfl
    | cons b l ih =>
      simp only [List.map_cons, List.foldl_cons]
      rw [← ih (max a b)]
      congr 1
      push_cast
      rcases le_total (a : ℝ) b with h | h
      · rw [max_eq_right h, max_eq_right (div_le_div_of_nonneg_right h hs)]
      · rw [max_eq_left h, max_eq_left (div_le_div_of_nonneg_right h hs)]

theorem projections_eq (c : List Pt) (n : Pt) (s : ℝ) : projections c n s = (c.map (dot n)).map fun a : Int => (a : ℝ) / s := by
  unfold projections dot
  rw [List.map_map]
  apply List.map_congr_left
  intro v _
  simp only [Function.comp_apply]
  push_cast
  ring

/-- The distance between the projections, times the scale, as an integer. -/
theorem separates_iff {c1 c2 : List Pt} (h1 : c1 ≠ []) (h2 : c2 ≠ []) {d s : ℝ} (hs : 0 < s) (n : Pt) : Separates c1 c2 d s n ↔
    (d * s < (listMin (c2.map (dot n)) - listMax (c1.map (dot n)) : Int) ∨ d * s < (listMin (c1.map (dot n)) - listMax (c2.map (dot n)) : Int)) := by
  unfold Separates
  rw [projections_eq, projections_eq, realMin_map _ s hs.le (by simpa using h2), realMax_map _ s hs.le (by simpa using h1),
    realMin_map _ s hs.le (by simpa using h1), realMax_map _ s hs.le (by simpa using h2), ← sub_div, ← sub_div, gt_iff_lt, gt_iff_lt,
    lt_div_iff₀ hs, lt_div_iff₀ hs]
  push_cast
  rfl

theorem norm2_pos {n : Pt} (h : n ≠ (0, 0)) : 0 < norm2 n := by
  unfold norm2
  apply Real.sqrt_pos.mpr
  by_contra hc
  apply h
  have h1 : (n.1 : ℝ) = 0 := by nlinarith [sq_nonneg (n.1 : ℝ), sq_nonneg (n.2 : ℝ)]
  have h2 : (n.2 : ℝ) = 0 := by nlinarith [sq_nonneg (n.1 : ℝ), sq_nonneg (n.2 : ℝ)]
  exact Prod.ext (by exact_mod_cast h1) (by exact_mod_cast h2)

theorem lnormals_get {c : List Pt} {i : Nat} (hi : i < c.length) : (lnormals c)[i]? = some (-(edgeVec c i).2, (edgeVec c i).1) := by
  unfold lnormals
  rw [List.getElem?_map, List.getElem?_range hi]
  rfl

/-- The third normal of a hull is not zero. -/
theorem third_normal {pts vs : List Pt} (h : IsHull pts vs) (c2 : List Pt) :
    ∃ n, (lnormals vs.reverse ++ lnormals c2)[2]? = some n ∧ (lnormals vs.reverse)[2]? = some n ∧ n ≠ (0, 0) := by
  have h3 := h.three
  have hl : 2 < vs.reverse.length := by rw [List.length_reverse]; omega
  refine ⟨_, ?_, lnormals_get hl, ?_⟩
  · rw [List.getElem?_append_left (by simp only [lnormals, List.length_map, List.length_range]; exact hl)]
    exact lnormals_get hl
  · intro he
    have e1 : (edgeVec vs.reverse 2).1 = 0 := (Prod.mk.inj he).2
    have e2 : (edgeVec vs.reverse 2).2 = 0 := by have := (Prod.mk.inj he).1; omega
    -- the two ends of the edge differ, because they are different vertices of a strictly convex polygon
    have key : ∀ i j k, i < j → j < k → k < vs.length →
        vs.getD i (0, 0) ≠ vs.getD j (0, 0) ∧ vs.getD j (0, 0) ≠ vs.getD k (0, 0) ∧ vs.getD i (0, 0) ≠ vs.getD k (0, 0) := by
      intro i j k hij hjk hk
      have hc := h.convex i j k hij hjk hk
      unfold cross at hc
      refine ⟨?_, ?_, ?_⟩
      · intro e; rw [e] at hc; simp at hc
      · intro e; rw [e] at hc; rw [mul_comm] at hc; simp at hc
      · intro e; rw [e] at hc; simp at hc
    unfold edgeVec nextCorner at e1 e2
    dsimp only at e1 e2
    have hr : vs.reverse.getD 2 (0, 0) = vs.reverse.getD ((2 + 1) % vs.reverse.length) (0, 0) :=
      Prod.ext (by omega) (by omega)
    rw [List.length_reverse] at hr
    rw [getD_reverse vs (by omega), getD_reverse vs (Nat.mod_lt _ (by omega))] at hr
    by_cases hl3 : vs.length = 3
    · rw [hl3] at hr
      exact (key 0 1 2 (by omega) (by omega) (by omega)).2.2 hr
    · rw [Nat.mod_eq_of_lt (by omega)] at hr
      by_cases h4 : 0 < vs.length - 1 - 3
      · exact (key 0 (vs.length - 1 - 3) (vs.length - 1 - 2) h4 (by omega) (by omega)).2.1 hr.symm
      · have : vs.length = 4 := by omega
        rw [this] at hr
        exact (key 0 1 2 (by omega) (by omega) (by omega)).1 hr.symm

theorem conv_dot {pts vs : List Pt} (h : IsHull pts vs) (n : Pt) {s : ℚ × ℚ} (hs : s ∈ conv vs) :
    ((listMin (vs.reverse.map (dot n)) : Int) : ℚ) ≤ n.1 * s.1 + n.2 * s.2 ∧ n.1 * s.1 + n.2 * s.2 ≤ ((listMax (vs.reverse.map (dot n)) : Int) : ℚ) := by
  have hne : vs ≠ [] := by intro e; have := h.three; rw [e] at this; simp at this
  obtain ⟨-, h1⟩ := listMin_spec (l := vs.reverse.map (dot n)) (by simpa using hne)
  obtain ⟨-, h2⟩ := listMax_spec (l := vs.reverse.map (dot n)) (by simpa using hne)
  constructor
  · refine conv_half (fun p hp => ?_) hs
    have := h1 (dot n p) (List.mem_map_of_mem (by simpa using hp))
    have h' : ((listMin (vs.reverse.map (dot n)) : Int) : ℚ) ≤ ((dot n p : Int) : ℚ) := by exact_mod_cast this
    have e : ((dot n p : Int) : ℚ) = p.1 * n.1 + p.2 * n.2 := by unfold dot; push_cast; ring
    rw [e] at h'
    linarith
  · have := conv_half (pts := vs) (a := -n.1) (b := -n.2) (c := -((listMax (vs.reverse.map (dot n)) : Int) : ℚ)) (fun p hp => ?_) hs
    · linarith
    · have := h2 (dot n p) (List.mem_map_of_mem (by simpa using hp))
      have h' : ((dot n p : Int) : ℚ) ≤ ((listMax (vs.reverse.map (dot n)) : Int) : ℚ) := by exact_mod_cast this
      have e : ((dot n p : Int) : ℚ) = p.1 * n.1 + p.2 * n.2 := by unfold dot; push_cast; ring
      rw [e] at h'
      linarith

theorem overlaps_unfold {c1 c2 : List Pt} {n : Pt} (h : (lnormals c1 ++ lnormals c2)[2]? = some n) (d : ℝ) (b : Bool) :
    overlapsWith c1 c2 d = .ok b ↔ (b = true ↔ ¬ ∃ m ∈ lnormals c1 ++ lnormals c2, Separates c1 c2 d (norm2 n) m) := by
  unfold overlapsWith
  simp only [h, Except.ok.injEq]
  cases b <;> simp

/-! ### C72 -/

/-- **C72.** If the convex hulls of two sets of points share a point, `overlaps_with` is true, for every non-negative distance. -/
theorem C72_shared {hull : HullFn} {pts1 vs1 pts2 vs2 : List Pt} (h1 : hull pts1 = .ok vs1) (i1 : IsHull pts1 vs1)
    (h2 : hull pts2 = .ok vs2) (i2 : IsHull pts2 vs2) {s : ℚ × ℚ} (hs1 : s ∈ conv pts1) (hs2 : s ∈ conv pts2) {d : ℝ} (hd : 0 ≤ d) :
    ∃ r1 r2, mkHull hull pts1 none true = .ok r1 ∧ mkHull hull pts2 none true = .ok r2 ∧
      overlapsWith r1.corners r2.corners d = .ok true := by
  unfold mkHull
  rw [h1, h2]
  refine ⟨_, _, rfl, rfl, ?_⟩
  dsimp only
  obtain ⟨n, hn, _, hn0⟩ := third_normal i1 vs2.reverse
  rw [overlaps_unfold hn]
  simp only [true_iff]
  rintro ⟨m, hm, hsep⟩
  have hne1 : vs1.reverse ≠ [] := by intro e; have := i1.three; rw [List.reverse_eq_nil_iff.mp e] at this; simp at this
  have hne2 : vs2.reverse ≠ [] := by intro e; have := i2.three; rw [List.reverse_eq_nil_iff.mp e] at this; simp at this
  rw [separates_iff hne1 hne2 (norm2_pos hn0)] at hsep
  obtain ⟨a1, a2⟩ := conv_dot i1 m (i1.conv_eq ▸ hs1)
  obtain ⟨b1, b2⟩ := conv_dot i2 m (i2.conv_eq ▸ hs2)
  have hz : 0 ≤ d * norm2 n := mul_nonneg hd (norm2_pos hn0).le
  have c1 : listMin (vs2.reverse.map (dot m)) ≤ listMax (vs1.reverse.map (dot m)) := by
    have : ((listMin (vs2.reverse.map (dot m)) : Int) : ℚ) ≤ ((listMax (vs1.reverse.map (dot m)) : Int) : ℚ) := le_trans b1 a2
    exact_mod_cast this
  have c2 : listMin (vs1.reverse.map (dot m)) ≤ listMax (vs2.reverse.map (dot m)) := by
    have : ((listMin (vs1.reverse.map (dot m)) : Int) : ℚ) ≤ ((listMax (vs2.reverse.map (dot m)) : Int) : ℚ) := le_trans a1 b2
    exact_mod_cast this
  rcases hsep with h | h
  · have := lt_of_le_of_lt hz h
    have : (0 : Int) < listMin (vs2.reverse.map (dot m)) - listMax (vs1.reverse.map (dot m)) := by exact_mod_cast this
    omega
  · have := lt_of_le_of_lt hz h
    have : (0 : Int) < listMin (vs1.reverse.map (dot m)) - listMax (vs2.reverse.map (dot m)) := by exact_mod_cast this
    omega

/-- **C72 (partial).** `overlaps_with` is symmetric if the third normals of the two hulls have the same length, or if the distance is
zero.
Missing: other pairs of hulls, see `C72_violated`. -/
theorem C72_symmetric_partial {hull : HullFn} {pts1 vs1 pts2 vs2 : List Pt} (h1 : hull pts1 = .ok vs1) (i1 : IsHull pts1 vs1)
    (h2 : hull pts2 = .ok vs2) (i2 : IsHull pts2 vs2) {d : ℝ}
    (hd : d = 0 ∨ (lnormals vs1.reverse)[2]?.map norm2 = (lnormals vs2.reverse)[2]?.map norm2) :
    ∃ r1 r2 b, mkHull hull pts1 none true = .ok r1 ∧ mkHull hull pts2 none true = .ok r2 ∧
      overlapsWith r1.corners r2.corners d = .ok b ∧ overlapsWith r2.corners r1.corners d = .ok b := by
  classical
  unfold mkHull
  rw [h1, h2]
  obtain ⟨n, hn, hn', hn0⟩ := third_normal i1 vs2.reverse
  obtain ⟨k, hk, hk', hk0⟩ := third_normal i2 vs1.reverse
  refine ⟨_, _, decide (¬ ∃ m ∈ lnormals vs1.reverse ++ lnormals vs2.reverse, Separates vs1.reverse vs2.reverse d (norm2 n) m), rfl, rfl,
    (overlaps_unfold hn d _).mpr decide_eq_true_iff, ?_⟩
  rw [overlaps_unfold hk, decide_eq_true_iff, not_iff_not]
  have hne1 : vs1.reverse ≠ [] := by intro e; have := i1.three; rw [List.reverse_eq_nil_iff.mp e] at this; simp at this
  have hne2 : vs2.reverse ≠ [] := by intro e; have := i2.three; rw [List.reverse_eq_nil_iff.mp e] at this; simp at this
  have hscale : d * norm2 n = d * norm2 k := by
    rcases hd with rfl | hd
    · simp
    · rw [hn', hk'] at hd
      rw [Option.some.inj hd]
  have : ∀ m, Separates vs1.reverse vs2.reverse d (norm2 n) m ↔ Separates vs2.reverse vs1.reverse d (norm2 k) m := by
    intro m
    rw [separates_iff hne1 hne2 (norm2_pos hn0), separates_iff hne2 hne1 (norm2_pos hk0), hscale]
    exact or_comm
  constructor
  · rintro ⟨m, hm, hs⟩
    exact ⟨m, by simp only [List.mem_append] at hm ⊢; tauto, (this m).mp hs⟩
  · rintro ⟨m, hm, hs⟩
    exact ⟨m, by simp only [List.mem_append] at hm ⊢; tauto, (this m).mpr hs⟩

/-- The hypotheses can be met: two boxes that overlap and whose third normals have the same length. -/
example : IsHull [(0, 0), (0, 2), (2, 2), (2, 0)] [(0, 0), (2, 0), (2, 2), (0, 2)] ∧
    IsHull [(1, 1), (1, 3), (3, 3), (3, 1)] [(1, 1), (3, 1), (3, 3), (1, 3)] ∧
    (1, 1) ∈ conv [(0, 0), (0, 2), (2, 2), (2, 0)] ∧ (1, 1) ∈ conv [(1, 1), (1, 3), (3, 3), (3, 1)] ∧
    (lnormals [(0, 0), (2, 0), (2, 2), (0, 2)].reverse)[2]?.map norm2 = (lnormals [(1, 1), (3, 1), (3, 3), (1, 3)].reverse)[2]?.map norm2 := by
  obtain ⟨v1, a1, b1⟩ := boxHull_spec.ok 0 2 0 2 (by decide) (by decide)
  obtain ⟨v2, a2, b2⟩ := boxHull_spec.ok 1 3 1 3 (by decide) (by decide)
  cases a1
  cases a2
  refine ⟨b1, b2, ?_, ?_, ?_⟩
  · have := conv_three (pts := [(0, 0), (0, 2), (2, 2), (2, 0)]) (a := (0, 0)) (b := (2, 2)) (c := (0, 0)) (by simp) (by simp) (by simp)
      (u := 1 / 2) (v := 1 / 2) (w := 0) (by norm_num) (by norm_num) (by norm_num) (by norm_num)
    norm_num at this
    exact this
  · have := conv_mem (pts := [(1, 1), (1, 3), (3, 3), (3, 1)]) (p := (1, 1)) (by simp)
    unfold toQ at this
    norm_num at this
    exact this
  · rfl

/-- The corners of a diamond of half diagonal ten, clockwise (an example for linalg/geometry.py:411-440). -/
def diamond : List Pt := [(0, 0), (-10, -10), (-20, 0), (-10, 10)]
/-- The corners of the box `[1, 2] × [-1, 1]`, clockwise (an example for linalg/geometry.py:411-440). -/
def smallBox : List Pt := [(1, 1), (2, 1), (2, -1), (1, -1)]

/-- **C72 violated.** `overlaps_with` is not symmetric: a diamond overlaps a box one pixel away from it, but the box does not overlap
the diamond, because every distance is divided by the length of the third edge of the first hull, not of the edge concerned. -/
theorem C72_violated : IsHull diamond.reverse diamond.reverse ∧ IsHull smallBox.reverse smallBox.reverse ∧
    overlapsWith diamond smallBox (1 / 2) = .ok true ∧ overlapsWith smallBox diamond (1 / 2) = .ok false := by
  have hull4 : ∀ l : List Pt, l.length = 4 → 0 < cross (l.getD 0 (0, 0)) (l.getD 1 (0, 0)) (l.getD 2 (0, 0)) →
      0 < cross (l.getD 0 (0, 0)) (l.getD 1 (0, 0)) (l.getD 3 (0, 0)) → 0 < cross (l.getD 0 (0, 0)) (l.getD 2 (0, 0)) (l.getD 3 (0, 0)) →
      0 < cross (l.getD 1 (0, 0)) (l.getD 2 (0, 0)) (l.getD 3 (0, 0)) → IsHull l l := by
    intro l hl a b c d
    refine ⟨fun _ h => h, by omega, ?_, fun p hp => conv_mem hp⟩
    intro i j k hij hjk hk
    have hk' : k = 2 ∨ k = 3 := by omega
    have hj : j = 1 ∨ j = 2 := by omega
    have hi : i = 0 ∨ i = 1 := by omega
    rcases hk' with rfl | rfl <;> rcases hj with rfl | rfl <;> rcases hi with rfl | rfl <;> omega
  refine ⟨hull4 _ rfl (by decide) (by decide) (by decide) (by decide), hull4 _ rfl (by decide) (by decide) (by decide) (by decide), ?_, ?_⟩
  · rw [overlaps_unfold (n := (-10, 10)) (by decide)]
    simp only [true_iff]
    rintro ⟨m, hm, hs⟩
    rw [separates_iff (by decide) (by decide) (norm2_pos (by decide))] at hs
    have h14 : (14 : ℝ) ≤ norm2 (-10, 10) := by
      unfold norm2
      apply Real.le_sqrt_of_sq_le
      norm_num
    have hle : listMin (smallBox.map (dot m)) - listMax (diamond.map (dot m)) ≤ 2 ∧
        listMin (diamond.map (dot m)) - listMax (smallBox.map (dot m)) ≤ 2 := by
      have : ∀ m ∈ lnormals diamond ++ lnormals smallBox, listMin (smallBox.map (dot m)) - listMax (diamond.map (dot m)) ≤ 2 ∧
        listMin (diamond.map (dot m)) - listMax (smallBox.map (dot m)) ≤ 2 := by decide
      exact this m hm
    have h1 : ((listMin (smallBox.map (dot m)) - listMax (diamond.map (dot m)) : Int) : ℝ) ≤ 2 := by exact_mod_cast hle.1
    have h2 : ((listMin (diamond.map (dot m)) - listMax (smallBox.map (dot m)) : Int) : ℝ) ≤ 2 := by exact_mod_cast hle.2
    rcases hs with h | h <;> linarith
  · rw [overlaps_unfold (n := (0, -1)) (by decide)]
    simp only [Bool.false_eq_true, false_iff, not_not]
    refine ⟨(2, 0), by decide, ?_⟩
    rw [separates_iff (by decide) (by decide) (norm2_pos (by decide))]
    refine Or.inr ?_
    have h1 : norm2 (0, -1) = 1 := by unfold norm2; norm_num
    have h2 : listMin (smallBox.map (dot (2, 0))) - listMax (diamond.map (dot (2, 0))) = 2 := by decide
    rw [h1, h2]
    norm_num

end Verif.Linalg.Geometry
