/- C126: the measures of hulls and boxes. -/
import Verif.Linalg.Area
import Verif.Linalg.HullProps
import Mathlib.Algebra.BigOperators.Intervals
import Mathlib.Algebra.BigOperators.Field
import Mathlib.Tactic.FinCases
import Mathlib.Algebra.Order.BigOperators.Group.List
import Mathlib.Tactic.NormNum

set_option autoImplicit false

namespace Verif.Linalg.Geometry

/-! ### sums over edges -/

theorem sum_edges {M : Type*} [AddCommMonoid M] (c : List Pt) (f : Pt × Pt → M) :
    ((edges c).map f).sum = ∑ i ∈ Finset.range c.length, f (c.getD i (0, 0), nextCorner c i) := by
  unfold edges
  rw [List.map_map]
  rfl

theorem sum_cyclic {M : Type*} [AddCommMonoid M] (n : Nat) (g : Nat → M) :
    ∑ i ∈ Finset.range n, g ((i + 1) % n) = ∑ i ∈ Finset.range n, g i := by
  cases n with
  | zero => simp
  | succ n =>
    rw [Finset.sum_range_succ, Finset.sum_range_succ', Nat.mod_self]
    congr 1
    apply Finset.sum_congr rfl
    intro i hi
    rw [Finset.mem_range] at hi
    rw [Nat.mod_eq_of_lt (by omega)]

/-- The corners moved by `d`. -/
def shift (d : Pt) (c : List Pt) : List Pt := c.map fun p => (p.1 + d.1, p.2 + d.2)

theorem getD_shift (d : Pt) (c : List Pt) {i : Nat} (h : i < c.length) :
    (shift d c).getD i (0, 0) = ((c.getD i (0, 0)).1 + d.1, (c.getD i (0, 0)).2 + d.2) := by
  unfold shift
  rw [List.getD_eq_getElem _ _ (by simpa using h), List.getD_eq_getElem _ _ h, List.getElem_map]

theorem next_shift (d : Pt) (c : List Pt) {i : Nat} (h : i < c.length) :
    nextCorner (shift d c) i = ((nextCorner c i).1 + d.1, (nextCorner c i).2 + d.2) := by
  unfold nextCorner
  have : (shift d c).length = c.length := by simp [shift]
  rw [this, getD_shift d c (Nat.mod_lt _ (by omega))]

theorem shoelace_shift (d : Pt) (c : List Pt) : shoelace (shift d c) = shoelace c := by
  have hl : (shift d c).length = c.length := by simp [shift]
  have e : ∑ i ∈ Finset.range c.length, ((c.getD i (0, 0)).1 * d.2 - (c.getD i (0, 0)).2 * d.1) =
      ∑ i ∈ Finset.range c.length, ((nextCorner c i).1 * d.2 - (nextCorner c i).2 * d.1) :=
    (sum_cyclic c.length fun i => (c.getD i (0, 0)).1 * d.2 - (c.getD i (0, 0)).2 * d.1).symm
  unfold shoelace
  rw [sum_edges, sum_edges, hl]
  have : ∀ i ∈ Finset.range c.length, ((shift d c).getD i (0, 0)).1 * (nextCorner (shift d c) i).2 -
      (nextCorner (shift d c) i).1 * ((shift d c).getD i (0, 0)).2 =
      ((c.getD i (0, 0)).1 * (nextCorner c i).2 - (nextCorner c i).1 * (c.getD i (0, 0)).2) +
      (((c.getD i (0, 0)).1 * d.2 - (c.getD i (0, 0)).2 * d.1) - ((nextCorner c i).1 * d.2 - (nextCorner c i).2 * d.1)) := by
    intro i hi
    rw [Finset.mem_range] at hi
    rw [getD_shift d c hi, next_shift d c hi]
    ring
  rw [Finset.sum_congr rfl this, Finset.sum_add_distrib]
  have e' := Finset.sum_sub_distrib (s := Finset.range c.length) (fun i => (c.getD i (0, 0)).1 * d.2 - (c.getD i (0, 0)).2 * d.1)
    (fun i => (nextCorner c i).1 * d.2 - (nextCorner c i).2 * d.1)
  rw [e', e, sub_self, add_zero]

theorem circumference_shift (d : Pt) (c : List Pt) : circumference (shift d c) = circumference c := by
  have hl : (shift d c).length = c.length := by simp [shift]
  unfold circumference
  rw [sum_edges, sum_edges, hl]
  apply Finset.sum_congr rfl
  intro i hi
  rw [Finset.mem_range] at hi
  rw [getD_shift d c hi, next_shift d c hi]
  unfold edgeLength
  dsimp only
  rw [add_sub_add_right_eq_sub, add_sub_add_right_eq_sub]

/-! ### the corners in another order -/

theorem getD_rotate_one (c : List Pt) {i : Nat} (h : i < c.length) :
    (c.rotate 1).getD i (0, 0) = c.getD ((i + 1) % c.length) (0, 0) := by
  rw [List.getD_eq_getElem _ _ (by simpa using h), List.getElem_rotate, List.getD_eq_getElem _ _ (Nat.mod_lt _ (by omega))]

theorem sum_rotate_one {M : Type*} [AddCommMonoid M] (c : List Pt) (f : Pt × Pt → M) :
    ((edges (c.rotate 1)).map f).sum = ((edges c).map f).sum := by
  rw [sum_edges, sum_edges, List.length_rotate,
    ← sum_cyclic c.length fun i => f (c.getD i (0, 0), nextCorner c i)]
  apply Finset.sum_congr rfl
  intro i hi
  rw [Finset.mem_range] at hi
  unfold nextCorner
  rw [List.length_rotate, getD_rotate_one c hi, getD_rotate_one c (Nat.mod_lt _ (by omega))]

theorem sum_rotate {M : Type*} [AddCommMonoid M] (c : List Pt) (f : Pt × Pt → M) (k : Nat) :
    ((edges (c.rotate k)).map f).sum = ((edges c).map f).sum := by
  induction k with
  | zero => rw [List.rotate_zero]
  | succ k ih => rw [← List.rotate_rotate, sum_rotate_one, ih]

/-- C126. Area and circumference do not change when the hull is moved, or when the list of corners starts at another
one. -/
theorem C126_invariant (c : List Pt) (d : Pt) (k : Nat) :
    area (c.map fun p => (p.1 + d.1, p.2 + d.2)) = area c ∧
      circumference (c.map fun p => (p.1 + d.1, p.2 + d.2)) = circumference c ∧
      area (c.rotate k) = area c ∧ circumference (c.rotate k) = circumference c := by
  have h1 := shoelace_shift d c
  have h2 := circumference_shift d c
  have h3 : shoelace (c.rotate k) = shoelace c := sum_rotate c _ k
  have h4 : circumference (c.rotate k) = circumference c := sum_rotate c _ k
  unfold shift at h1 h2
  refine ⟨?_, h2, ?_, h4⟩
  · unfold area
    rw [h1, h2]
  · unfold area
    rw [h3, h4]

/-- C126. Every edge leads from a corner to the next, the last one back to the first. -/
theorem C126_edges (c : List Pt) (hc : c ≠ []) : (edges c).map Prod.fst = c ∧ (edges c).map Prod.snd = c.rotate 1 := by
  have hpos : 0 < c.length := List.length_pos_of_ne_nil hc
  constructor <;> unfold edges <;> rw [List.map_map]
  · apply List.ext_getElem (by simp)
    intro i h1 h2
    simp [h2]
  · apply List.ext_getElem (by simp)
    intro i h1 h2
    have hi : (i + 1) % c.length < c.length := Nat.mod_lt _ hpos
    simp [nextCorner, List.getElem_rotate, hi]

/-- C126. The midpoint of every edge is in the convex hull of the given points. -/
theorem C126_midpoints {pts vs : List Pt} (h : IsHull pts vs) (m : ℚ × ℚ) (hm : m ∈ edgeMidpoints vs.reverse) :
    m ∈ convexHull ℚ {q : ℚ × ℚ | ∃ p ∈ pts, ((p.1 : ℚ), (p.2 : ℚ)) = q} := by
  have h3 := h.three
  unfold edgeMidpoints edges at hm
  simp only [List.map_map, List.mem_map, List.mem_range, Function.comp_apply] at hm
  obtain ⟨i, hi, rfl⟩ := hm
  have hmem : ∀ j < vs.reverse.length, vs.reverse.getD j (0, 0) ∈ pts := by
    intro j hj
    rw [List.getD_eq_getElem _ _ hj]
    exact h.sub _ (List.mem_reverse.1 (List.getElem_mem _))
  have ha := hmem i hi
  have hb := hmem ((i + 1) % vs.reverse.length) (Nat.mod_lt _ (by omega))
  have := conv_three ha hb hb (u := 1 / 2) (v := 1 / 2) (w := 0) (by norm_num) (by norm_num) le_rfl (by norm_num)
  unfold nextCorner
  have e : ∀ x y : ℚ, (x + y) / 2 = 1 / 2 * x + 1 / 2 * y + 0 * y := fun x y => by ring
  rw [e, e]
  exact this

/-! ### the area of the polygon -/

/-- The sum of `area` is twice the signed area of the triangles with the first corner. -/
theorem shoelace_fan (c : List Pt) :
    shoelace c = ∑ i ∈ Finset.range c.length, cross (c.getD 0 (0, 0)) (c.getD i (0, 0)) (nextCorner c i) := by
  rw [← shoelace_shift (-(c.getD 0 (0, 0)).1, -(c.getD 0 (0, 0)).2) c]
  have hl : (shift (-(c.getD 0 (0, 0)).1, -(c.getD 0 (0, 0)).2) c).length = c.length := by simp [shift]
  unfold shoelace
  rw [sum_edges, hl]
  apply Finset.sum_congr rfl
  intro i hi
  rw [Finset.mem_range] at hi
  rw [getD_shift _ c hi, next_shift _ c hi]
  unfold cross
  dsimp only
  ring

theorem cross_rev (a b c : Pt) : cross c b a = -cross a b c := by unfold cross; ring

/-- The corners of a hull are clockwise. -/
theorem IsHull.clockwise {pts vs : List Pt} (h : IsHull pts vs) (i j k : Nat) (hij : i < j) (hjk : j < k) (hk : k < vs.length) :
    cross (vs.reverse.getD i (0, 0)) (vs.reverse.getD j (0, 0)) (vs.reverse.getD k (0, 0)) < 0 := by
  rw [getD_reverse vs (by omega), getD_reverse vs (by omega), getD_reverse vs hk, cross_rev]
  have := h.convex (vs.length - 1 - k) (vs.length - 1 - j) (vs.length - 1 - i) (by omega) (by omega) (by omega)
  rw [cross_rev] at this
  have e := cross_rev (vs.getD (vs.length - 1 - i) (0, 0)) (vs.getD (vs.length - 1 - j) (0, 0)) (vs.getD (vs.length - 1 - k) (0, 0))
  omega

/-- C126. The first term of the area is the area of the polygon: that of the triangles which the first corner makes with the
edges. -/
theorem C126_polygon {pts vs : List Pt} (h : IsHull pts vs) :
    area vs.reverse = ∑ i ∈ Finset.range (vs.length - 2),
        |(cross (vs.reverse.getD 0 (0, 0)) (vs.reverse.getD (i + 1) (0, 0)) (vs.reverse.getD (i + 2) (0, 0)) : ℝ)| / 2 +
      circumference vs.reverse / 2 - 1 := by
  have h3 := h.three
  obtain ⟨n, hn⟩ : ∃ n, vs.length = n + 2 := ⟨vs.length - 2, by omega⟩
  have e : shoelace vs.reverse = ∑ i ∈ Finset.range (vs.length - 2),
      cross (vs.reverse.getD 0 (0, 0)) (vs.reverse.getD (i + 1) (0, 0)) (vs.reverse.getD (i + 2) (0, 0)) := by
    rw [shoelace_fan, List.length_reverse, hn, Finset.sum_range_succ, Finset.sum_range_succ']
    have e0 : cross (vs.reverse.getD 0 (0, 0)) (vs.reverse.getD 0 (0, 0)) (nextCorner vs.reverse 0) = 0 := by
      unfold cross; ring
    have e1 : nextCorner vs.reverse (n + 1) = vs.reverse.getD 0 (0, 0) := by
      unfold nextCorner
      rw [List.length_reverse, hn, Nat.mod_self]
    rw [e0, e1, cross_start, add_zero, add_zero]
    apply Finset.sum_congr (by rw [Nat.add_sub_cancel])
    intro i hi
    rw [Finset.mem_range] at hi
    unfold nextCorner
    rw [List.length_reverse, hn, Nat.mod_eq_of_lt (by omega)]
  unfold area
  have hneg : ∀ i ∈ Finset.range (vs.length - 2),
      |(cross (vs.reverse.getD 0 (0, 0)) (vs.reverse.getD (i + 1) (0, 0)) (vs.reverse.getD (i + 2) (0, 0)) : ℝ)| / 2 =
      -((cross (vs.reverse.getD 0 (0, 0)) (vs.reverse.getD (i + 1) (0, 0)) (vs.reverse.getD (i + 2) (0, 0)) : ℝ) / 2) := by
    intro i hi
    rw [Finset.mem_range] at hi
    have := h.clockwise 0 (i + 1) (i + 2) (by omega) (by omega) (by omega)
    rw [abs_of_neg (by exact_mod_cast this)]
    ring
  have hle : (shoelace vs.reverse : ℝ) ≤ 0 := by
    rw [e]
    have : ∑ i ∈ Finset.range (vs.length - 2),
        cross (vs.reverse.getD 0 (0, 0)) (vs.reverse.getD (i + 1) (0, 0)) (vs.reverse.getD (i + 2) (0, 0)) ≤ 0 := by
      apply Finset.sum_nonpos
      intro i hi
      rw [Finset.mem_range] at hi
      exact (h.clockwise 0 (i + 1) (i + 2) (by omega) (by omega) (by omega)).le
    exact_mod_cast this
  rw [Finset.sum_congr rfl hneg, Finset.sum_neg_distrib, ← Finset.sum_div, abs_of_nonpos hle, e]
  push_cast
  ring

/-- The hypothesis can be met: a right triangle with legs 4 and 3 has area 6. -/
example : area [(0, 3), (4, 0), (0, 0)] = 6 + circumference [(0, 3), (4, 0), (0, 0)] / 2 - 1 := by
  have := C126_polygon exampleHull_spec
  norm_num [cross] at this
  exact this

/-! ### boxes -/

/-- The corners of a box, counter-clockwise. -/
def boxCorner (xl xu yl yu : Int) : Fin 4 → Pt
  | 0 => (xl, yl)
  | 1 => (xu, yl)
  | 2 => (xu, yu)
  | 3 => (xl, yu)

/-- The orientation of three corners of a box. -/
def orient : Fin 4 → Fin 4 → Fin 4 → Int := fun i j k =>
  cross (boxCorner 0 1 0 1 i) (boxCorner 0 1 0 1 j) (boxCorner 0 1 0 1 k)

theorem cross_box (xl xu yl yu : Int) (i j k : Fin 4) :
    cross (boxCorner xl xu yl yu i) (boxCorner xl xu yl yu j) (boxCorner xl xu yl yu k) =
      orient i j k * ((xu - xl) * (yu - yl)) := by
  unfold orient cross
  fin_cases i <;> fin_cases j <;> fin_cases k <;> simp [boxCorner] <;> ring

theorem orient_four : ∀ a b c d : Fin 4, 0 < orient a b c → 0 < orient a b d → 0 < orient a c d → 0 < orient b c d →
    (b = a + 1 ∧ c = a + 2 ∧ d = a + 3) := by decide +kernel

theorem orient_five : ∀ a b c d e : Fin 4, 0 < orient a b c → 0 < orient a b d → 0 < orient a c d → 0 < orient b c d →
    0 < orient a b e → 0 < orient a c e → 0 < orient a d e → False := by decide +kernel

theorem boxCorner_inj {xl xu yl yu : Int} (hx : xl < xu) (hy : yl < yu) {i j : Fin 4}
    (h : boxCorner xl xu yl yu i = boxCorner xl xu yl yu j) : i = j := by
  fin_cases i <;> fin_cases j <;> simp [boxCorner] at h ⊢ <;> omega

/-- The hull of a box is its four corners in counter-clockwise order. -/
theorem box_hull {xl xu yl yu : Int} (hx : xl < xu) (hy : yl < yu) {vs : List Pt}
    (h : IsHull [(xl, yl), (xl, yu), (xu, yu), (xu, yl)] vs) :
    ∃ a : Fin 4, vs = [boxCorner xl xu yl yu a, boxCorner xl xu yl yu (a + 1), boxCorner xl xu yl yu (a + 2),
      boxCorner xl xu yl yu (a + 3)] := by
  have hp : 0 < (xu - xl) * (yu - yl) := mul_pos (by omega) (by omega)
  have hidx : ∀ v ∈ vs, ∃ a, v = boxCorner xl xu yl yu a := by
    intro v hv
    have := h.sub v hv
    simp only [List.mem_cons, List.not_mem_nil, or_false] at this
    rcases this with rfl | rfl | rfl | rfl
    · exact ⟨0, rfl⟩
    · exact ⟨3, rfl⟩
    · exact ⟨2, rfl⟩
    · exact ⟨1, rfl⟩
  have hor : ∀ a b c : Fin 4, 0 < cross (boxCorner xl xu yl yu a) (boxCorner xl xu yl yu b) (boxCorner xl xu yl yu c) →
      0 < orient a b c := by
    intro a b c hc
    rw [cross_box] at hc
    exact pos_of_mul_pos_left hc hp.le
  have hall : ∀ d : Fin 4, boxCorner xl xu yl yu d ∈ vs := by
    intro d
    by_contra hd
    have hne : ∀ p ∈ vs, ∃ a, a ≠ d ∧ p = boxCorner xl xu yl yu a := by
      intro p hp
      obtain ⟨a, rfl⟩ := hidx p hp
      exact ⟨a, fun e => hd (e ▸ hp), rfl⟩
    have hc := h.cover (boxCorner xl xu yl yu d) (by fin_cases d <;> simp [boxCorner])
    have hw : (0 : ℚ) < xu - xl := by exact_mod_cast sub_pos.2 hx
    have hh : (0 : ℚ) < yu - yl := by exact_mod_cast sub_pos.2 hy
    have hwh := mul_pos hw hh
    let A : ℚ := ((yu : ℚ) - yl) * (if d = 0 ∨ d = 3 then 1 else -1)
    let B : ℚ := ((xu : ℚ) - xl) * (if d = 0 ∨ d = 1 then 1 else -1)
    have := conv_half (a := A) (b := B)
      (c := A * (boxCorner xl xu yl yu d).1 + B * (boxCorner xl xu yl yu d).2 + (xu - xl) * (yu - yl)) (by
        intro p hp
        obtain ⟨a, ha, rfl⟩ := hne p hp
        fin_cases d <;> fin_cases a <;> simp [A, B, boxCorner] at ha ⊢ <;> nlinarith) hc
    simp only [toQ] at this
    linarith
  have h3 := h.three
  match vs, h, hidx, hall, h3 with
  | [u, v, w], h, hidx, hall, _ =>
    exfalso
    obtain ⟨a, rfl⟩ := hidx u (by simp)
    obtain ⟨b, rfl⟩ := hidx v (by simp)
    obtain ⟨c, rfl⟩ := hidx w (by simp)
    obtain ⟨d, h1, h2, h3⟩ := (by decide : ∀ a b c : Fin 4, ∃ d : Fin 4, d ≠ a ∧ d ≠ b ∧ d ≠ c) a b c
    have := hall d
    simp only [List.mem_cons, List.not_mem_nil, or_false] at this
    rcases this with h | h | h
    · exact h1 (boxCorner_inj hx hy h)
    · exact h2 (boxCorner_inj hx hy h)
    · exact h3 (boxCorner_inj hx hy h)
  | [u, v, w, x], h, hidx, hall, _ =>
    obtain ⟨a, rfl⟩ := hidx u (by simp)
    obtain ⟨b, rfl⟩ := hidx v (by simp)
    obtain ⟨c, rfl⟩ := hidx w (by simp)
    obtain ⟨d, rfl⟩ := hidx x (by simp)
    obtain ⟨rfl, rfl, rfl⟩ := orient_four a b c d (hor _ _ _ (h.convex 0 1 2 (by simp) (by simp) (by simp)))
      (hor _ _ _ (h.convex 0 1 3 (by simp) (by simp) (by simp))) (hor _ _ _ (h.convex 0 2 3 (by simp) (by simp) (by simp)))
      (hor _ _ _ (h.convex 1 2 3 (by simp) (by simp) (by simp)))
    exact ⟨a, rfl⟩
  | u :: v :: w :: x :: y :: l, h, hidx, hall, _ =>
    exfalso
    obtain ⟨a, rfl⟩ := hidx u (by simp)
    obtain ⟨b, rfl⟩ := hidx v (by simp)
    obtain ⟨c, rfl⟩ := hidx w (by simp)
    obtain ⟨d, rfl⟩ := hidx x (by simp)
    obtain ⟨e, rfl⟩ := hidx y (by simp)
    exact orient_five a b c d e (hor _ _ _ (h.convex 0 1 2 (by simp) (by simp) (by simp)))
      (hor _ _ _ (h.convex 0 1 3 (by simp) (by simp) (by simp))) (hor _ _ _ (h.convex 0 2 3 (by simp) (by simp) (by simp)))
      (hor _ _ _ (h.convex 1 2 3 (by simp) (by simp) (by simp))) (hor _ _ _ (h.convex 0 1 4 (by simp) (by simp) (by simp)))
      (hor _ _ _ (h.convex 0 2 4 (by simp) (by simp) (by simp))) (hor _ _ _ (h.convex 0 3 4 (by simp) (by simp) (by simp)))

theorem box_measures {xl xu yl yu : Int} (hx : xl < xu) (hy : yl < yu) {vs : List Pt}
    (h : IsHull [(xl, yl), (xl, yu), (xu, yu), (xu, yl)] vs) :
    circumference vs.reverse = 2 * ((xu - xl : Int) + (yu - yl : Int)) + 4 ∧
      area vs.reverse = ((xu - xl + 1 : Int) : ℝ) * (yu - yl + 1 : Int) := by
  have hw : (0 : ℝ) < xu - xl := by exact_mod_cast sub_pos.2 hx
  have hh : (0 : ℝ) < yu - yl := by exact_mod_cast sub_pos.2 hy
  have s1 : Real.sqrt (((xu : ℝ) - xl) ^ 2) = xu - xl := Real.sqrt_sq hw.le
  have s2 : Real.sqrt (((xl : ℝ) - xu) ^ 2) = xu - xl := by rw [← s1]; congr 1; ring
  have s3 : Real.sqrt (((yu : ℝ) - yl) ^ 2) = yu - yl := Real.sqrt_sq hh.le
  have s4 : Real.sqrt (((yl : ℝ) - yu) ^ 2) = yu - yl := by rw [← s3]; congr 1; ring
  obtain ⟨a, rfl⟩ := box_hull hx hy h
  have hc : ∀ a : Fin 4, circumference [boxCorner xl xu yl yu a, boxCorner xl xu yl yu (a + 1), boxCorner xl xu yl yu (a + 2),
      boxCorner xl xu yl yu (a + 3)].reverse = 2 * ((xu - xl : Int) + (yu - yl : Int)) + 4 := by
    intro a
    fin_cases a <;>
      simp [circumference, edges, nextCorner, List.range_succ, edgeLength, boxCorner, s1, s2, s3, s4] <;> ring
  have hs : ∀ a : Fin 4, shoelace [boxCorner xl xu yl yu a, boxCorner xl xu yl yu (a + 1), boxCorner xl xu yl yu (a + 2),
      boxCorner xl xu yl yu (a + 3)].reverse = -(2 * ((xu - xl) * (yu - yl))) := by
    intro a
    fin_cases a <;> simp [shoelace, edges, nextCorner, List.range_succ, boxCorner] <;> ring
  refine ⟨hc a, ?_⟩
  unfold area
  rw [hc a, hs a]
  push_cast
  rw [abs_neg, abs_of_pos (mul_pos two_pos (mul_pos hw hh))]
  ring

theorem mesh_length {c : List Pt} (hx : minX c ≤ maxX c) (hy : minY c ≤ maxY c) :
    ((mesh c).length : Int) = (maxX c - minX c + 1) * (maxY c - minY c + 1) := by
  have e : (mesh c).length = (maxX c + 1 - minX c).toNat * (maxY c + 1 - minY c).toNat := by
    simp [mesh, arange, List.length_flatMap, Function.comp_def]
  rw [e]
  push_cast
  rw [Int.toNat_of_nonneg (by omega), Int.toNat_of_nonneg (by omega)]
  ring

/-- C126. The area of a box made from limits in order is the number of its pixels, which is also the product of the two
extents that the box reports; the circumference is that of the rectangle and one for every corner. -/
theorem C126_box {hull : HullFn} (hh : BoxHull hull) (xl xu yl yu : Int) (hx : xl < xu) (hy : yl < yu) :
    ∃ r, mkBox hull xl xu yl yu none = .ok r ∧ area r.corners = r.mask.length ∧ r.npx = (xu - xl + 1, yu - yl + 1) ∧
      (r.mask.length : Int) = r.npx.1 * r.npx.2 ∧ circumference r.corners = 2 * ((xu - xl : Int) + (yu - yl : Int)) + 4 := by
  obtain ⟨vs, h1, h2⟩ := hh.ok xl xu yl yu hx.ne hy.ne
  obtain ⟨r, hr, _, e1, e2, e3, e4, _, e5, e6, _⟩ := mkBox_ok hh hx.ne hy.ne none
  obtain ⟨m1, m2⟩ := box_measures hx hy h2
  have hc : r.corners = vs.reverse := by
    unfold mkBox at hr
    rw [h1] at hr
    cases hr
    rfl
  have hl : (r.mask.length : Int) = (xu - xl + 1) * (yu - yl + 1) := by
    rw [e6]
    show ((mesh r.corners).length : Int) = _
    rw [mesh_length (by omega) (by omega), e1, e2, e3, e4, min_eq_left hx.le, min_eq_left hy.le, max_eq_right hx.le,
      max_eq_right hy.le]
  have hn : r.npx = (xu - xl + 1, yu - yl + 1) := by rw [e5, abs_of_pos (by omega), abs_of_pos (by omega)]
  refine ⟨r, hr, ?_, hn, ?_, ?_⟩
  · rw [hc, m2]
    exact_mod_cast hl.symm
  · rw [hl, hn]
  · rw [hc, m1]

/-- The hypotheses can be met. -/
example : ∃ r, mkBox boxHull 2 5 1 3 none = .ok r ∧ area r.corners = 12 ∧ circumference r.corners = 14 := by
  obtain ⟨r, h, h1, h2, h3, h4⟩ := C126_box boxHull_spec 2 5 1 3 (by decide) (by decide)
  refine ⟨r, h, ?_, ?_⟩
  · rw [h2] at h3
    have : (r.mask.length : Int) = 12 := h3
    rw [h1]
    exact_mod_cast this
  · rw [h4]; norm_num

/-- C126 fails for hulls that are not boxes: the triangle of legs 4 and 3 has area 6 and 11 pixels; the area it reports
is 12.5. -/
theorem C126_violated : ∃ r, mkHull exampleHull [(0, 0), (4, 0), (1, 1), (0, 3)] none true = .ok r ∧
    r.mask.length = 11 ∧ area r.corners = 25 / 2 := by
  refine ⟨_, rfl, by decide +kernel, ?_⟩
  have s : Real.sqrt (4 ^ 2 + 3 ^ 2) = 5 := by
    rw [show (4 : ℝ) ^ 2 + 3 ^ 2 = 5 ^ 2 by norm_num]
    exact Real.sqrt_sq (by norm_num)
  have s3 : Real.sqrt (3 ^ 2) = 3 := Real.sqrt_sq (by norm_num)
  have s4 : Real.sqrt (4 ^ 2) = 4 := Real.sqrt_sq (by norm_num)
  have hc : circumference [(0, 3), (4, 0), (0, 0)] = 15 := by
    simp [circumference, edges, nextCorner, List.range_succ, edgeLength, s, s3, s4]
    norm_num
  have hs : shoelace [(0, 3), (4, 0), (0, 0)] = -12 := by decide
  show area [(0, 3), (4, 0), (0, 0)] = 25 / 2
  unfold area
  rw [hc, hs]
  norm_num

/-- C126 fails for boxes made from reversed limits: the box has the pixels from 2 to 5, and reports 2 instead of 4. -/
theorem C126_npx_violated : ∃ r, mkBox boxHull 5 2 1 3 none = .ok r ∧ r.mask.length = 12 ∧ r.npx = (2, 3) := by
  refine ⟨_, rfl, ?_, ?_⟩ <;> decide +kernel

end Verif.Linalg.Geometry
