/-
C67: membership of hulls and boxes. Also what the models need to know about `scipy.spatial.ConvexHull`.
-/
import Verif.Linalg.Geometry
import Mathlib.Analysis.Convex.Hull
import Mathlib.Analysis.Convex.Combination
import Mathlib.Data.List.GetD
import Mathlib.Data.List.Nodup
import Mathlib.Tactic.Ring
import Mathlib.Tactic.Linarith
import Mathlib.Tactic.FieldSimp
import Mathlib.Tactic.Push
import Mathlib.Tactic.IntervalCases

set_option autoImplicit false

namespace Verif.Linalg.Geometry

/-! ### Specification of the convex hull -/

/-- Twice the signed area of the triangle `a b p`: positive if it is wound counter-clockwise. -/
def cross (a b p : Pt) : Int := (b.1 - a.1) * (p.2 - a.2) - (b.2 - a.2) * (p.1 - a.1)

/-- A point with rational coordinates. -/
def toQ (p : Pt) : ℚ × ℚ := (p.1, p.2)

/-- The convex hull of a list of points, as a set. -/
def conv (pts : List Pt) : Set (ℚ × ℚ) := convexHull ℚ {q | ∃ p ∈ pts, toQ p = q}

/-- What `scipy.spatial.ConvexHull(pts).vertices` stands for: at least three of the points, in strictly convex position and
counter-clockwise order, whose convex hull contains all points. -/
structure IsHull (pts vs : List Pt) : Prop where
  sub : ∀ v ∈ vs, v ∈ pts
  three : 3 ≤ vs.length
  convex : ∀ i j k, i < j → j < k → k < vs.length → 0 < cross (vs.getD i (0, 0)) (vs.getD j (0, 0)) (vs.getD k (0, 0))
  cover : ∀ p ∈ pts, toQ p ∈ conv vs

/-- What the code relies on for boxes: a hull, except that corners on a line are rejected (`QhullError`, a `RuntimeError`). -/
structure BoxHull (hull : HullFn) : Prop where
  ok : ∀ xl xu yl yu : Int, xl ≠ xu → yl ≠ yu → ∃ vs, hull [(xl, yl), (xl, yu), (xu, yu), (xu, yl)] = .ok vs ∧
    IsHull [(xl, yl), (xl, yu), (xu, yu), (xu, yl)] vs
  flat : ∀ xl xu yl yu : Int, xl = xu ∨ yl = yu → hull [(xl, yl), (xl, yu), (xu, yu), (xu, yl)] = .error .runtimeError

/-! ### Convex sets -/

theorem conv_mem {pts : List Pt} {p : Pt} (h : p ∈ pts) : toQ p ∈ conv pts := subset_convexHull _ _ ⟨p, h, rfl⟩

theorem conv_half {pts : List Pt} {a b c : ℚ} (h : ∀ p ∈ pts, c ≤ a * p.1 + b * p.2) {s : ℚ × ℚ} (hs : s ∈ conv pts) :
    c ≤ a * s.1 + b * s.2 := by
  have hc : Convex ℚ {q : ℚ × ℚ | c ≤ a * q.1 + b * q.2} := by
    intro x hx y hy u v hu hv huv
    simp only [Set.mem_ofPred_eq, Prod.fst_add, Prod.smul_fst, smul_eq_mul, Prod.snd_add, Prod.smul_snd] at *
    have h1 := mul_le_mul_of_nonneg_left hx hu
    have h2 := mul_le_mul_of_nonneg_left hy hv
    have h3 : u * c + v * c = c := by rw [← add_mul, huv, one_mul]
    linarith
  have := convexHull_min (s := {q | ∃ p ∈ pts, toQ p = q}) (t := {q : ℚ × ℚ | c ≤ a * q.1 + b * q.2})
    (by rintro q ⟨p, hp, rfl⟩; exact h p hp) hc
  exact this hs

theorem conv_mono {l l' : List Pt} (h : ∀ p ∈ l, p ∈ l') : conv l ⊆ conv l' :=
  convexHull_mono (by rintro q ⟨p, hp, rfl⟩; exact ⟨p, h p hp, rfl⟩)

theorem IsHull.conv_eq {pts vs : List Pt} (h : IsHull pts vs) : conv vs = conv pts := by
  apply Set.Subset.antisymm (conv_mono h.sub)
  apply convexHull_min _ (convex_convexHull _ _)
  rintro q ⟨p, hp, rfl⟩
  exact h.cover p hp

theorem conv_three {pts : List Pt} {a b c : Pt} (ha : a ∈ pts) (hb : b ∈ pts) (hc : c ∈ pts) {u v w : ℚ} (hu : 0 ≤ u) (hv : 0 ≤ v)
    (hw : 0 ≤ w) (h1 : u + v + w = 1) :
    (u * a.1 + v * b.1 + w * c.1, u * a.2 + v * b.2 + w * c.2) ∈ conv pts := by
  have := (convex_convexHull ℚ {q | ∃ p ∈ pts, toQ p = q}).sum_mem (t := (Finset.univ : Finset (Fin 3)))
    (w := ![u, v, w]) (z := ![toQ a, toQ b, toQ c])
    (by intro i _; fin_cases i <;> simpa) (by simp [Fin.sum_univ_three, h1])
    (by intro i _; fin_cases i
        · exact conv_mem ha
        · exact conv_mem hb
        · exact conv_mem hc)
  simp only [Fin.sum_univ_three, Matrix.cons_val_zero, Matrix.cons_val_one, Matrix.cons_val_two, Matrix.head_cons,
    Matrix.tail_cons] at this
  exact this

/-! ### Edges of a reversed list -/

theorem getD_reverse (vs : List Pt) {i : Nat} (h : i < vs.length) : vs.reverse.getD i (0, 0) = vs.getD (vs.length - 1 - i) (0, 0) := by
  rw [List.getD_eq_getElem _ _ (by simpa using h), List.getD_eq_getElem _ _ (by omega), List.getElem_reverse]

/-- A point is on the inner side of every edge of the counter-clockwise polygon. -/
def InnerSide (vs : List Pt) (p : Pt) : Prop :=
  ∀ j < vs.length, 0 ≤ cross (vs.getD j (0, 0)) (vs.getD ((j + 1) % vs.length) (0, 0)) p

theorem hullContains_iff (vs : List Pt) (h3 : 3 ≤ vs.length) (p : Pt) : hullContains vs.reverse (toQ p) = true ↔ InnerSide vs p := by
  have key : ∀ i < vs.length, (decide ((((rnormals vs.reverse).getD i (0, 0)).1 : ℚ) * ((toQ p).1 - (vs.reverse.getD i (0, 0)).1) +
      (((rnormals vs.reverse).getD i (0, 0)).2 : ℚ) * ((toQ p).2 - (vs.reverse.getD i (0, 0)).2) > -(1 / 2)) = true ↔
      0 ≤ cross (nextCorner vs.reverse i) (vs.reverse.getD i (0, 0)) p) := by
    intro i hi
    have hn : (rnormals vs.reverse).getD i (0, 0) = ((edgeVec vs.reverse i).2, -(edgeVec vs.reverse i).1) := by
      unfold rnormals
      rw [List.getD_eq_getElem _ _ (by simpa using hi)]
      simp
    rw [hn, decide_eq_true_iff]
    unfold edgeVec cross toQ
    generalize nextCorner vs.reverse i = b
    generalize vs.reverse.getD i (0, 0) = a
    dsimp only
    have : (((b.2 - a.2 : Int) : ℚ)) * ((p.1 : ℚ) - a.1) + ((-(b.1 - a.1) : Int) : ℚ) * ((p.2 : ℚ) - a.2) =
        (((a.1 - b.1) * (p.2 - b.2) - (a.2 - b.2) * (p.1 - b.1) : Int) : ℚ) := by push_cast; ring
    rw [this]
    constructor
    · intro h
      have h' : (-1 : ℚ) < (((a.1 - b.1) * (p.2 - b.2) - (a.2 - b.2) * (p.1 - b.1) : Int) : ℚ) := by linarith
      have : (-1 : Int) < (a.1 - b.1) * (p.2 - b.2) - (a.2 - b.2) * (p.1 - b.1) := by exact_mod_cast h'
      omega
    · intro h
      have h' : (0 : ℚ) ≤ (((a.1 - b.1) * (p.2 - b.2) - (a.2 - b.2) * (p.1 - b.1) : Int) : ℚ) := by exact_mod_cast h
      linarith
  have hidx : ∀ i < vs.length, nextCorner vs.reverse i = vs.getD (if i + 1 = vs.length then vs.length - 1 else vs.length - 2 - i) (0, 0) ∧
      vs.reverse.getD i (0, 0) = vs.getD (vs.length - 1 - i) (0, 0) := by
    intro i hi
    refine ⟨?_, getD_reverse vs hi⟩
    unfold nextCorner
    rw [List.length_reverse]
    by_cases h : i + 1 = vs.length
    · rw [if_pos h, h, Nat.mod_self, getD_reverse vs (by omega)]
      rfl
    · rw [if_neg h, Nat.mod_eq_of_lt (by omega), getD_reverse vs (by omega)]
      congr 1; omega
  unfold hullContains
  rw [List.all_eq_true]
  constructor
  · intro h j hj
    by_cases hl : j + 1 = vs.length
    · have := (key (vs.length - 1) (by omega)).mp (h _ (by simp; omega))
      rw [(hidx _ (by omega)).1, (hidx _ (by omega)).2, if_pos (by omega)] at this
      rw [hl, Nat.mod_self]
      convert this using 2 <;> congr 1 <;> omega
    · have := (key (vs.length - 2 - j) (by omega)).mp (h _ (by simp; omega))
      rw [(hidx _ (by omega)).1, (hidx _ (by omega)).2, if_neg (by omega)] at this
      rw [Nat.mod_eq_of_lt (by omega)]
      convert this using 2 <;> congr 1 <;> omega
  · intro h i hi
    simp only [List.mem_range, List.length_reverse] at hi
    refine (key i hi).mpr ?_
    rw [(hidx _ hi).1, (hidx _ hi).2]
    by_cases hl : i + 1 = vs.length
    · rw [if_pos hl]
      have := h (vs.length - 1) (by omega)
      rw [show vs.length - 1 + 1 = vs.length by omega, Nat.mod_self] at this
      convert this using 2
      congr 1; omega
    · rw [if_neg hl]
      have := h (vs.length - 2 - i) (by omega)
      rw [Nat.mod_eq_of_lt (by omega)] at this
      convert this using 2
      congr 1; omega

/-- A sequence that goes from non-negative to non-positive changes sign somewhere. -/
theorem sign_change (g : Nat → Int) : ∀ m, 2 ≤ m → 0 ≤ g 1 → g m ≤ 0 → ∃ j, 1 ≤ j ∧ j + 1 ≤ m ∧ 0 ≤ g j ∧ g (j + 1) ≤ 0 := by
  intro m hm h1 h2
  induction m with
  | zero => omega
  | succ m ih =>
    by_cases hg : 0 ≤ g m
    · by_cases hm1 : m = 1
      · subst hm1; exact ⟨1, le_rfl, le_rfl, h1, h2⟩
      · exact ⟨m, by omega, le_rfl, hg, h2⟩
    · by_cases hm2 : 2 ≤ m
      · obtain ⟨j, a, b, c, d⟩ := ih hm2 (by omega)
        exact ⟨j, a, by omega, c, d⟩
      · have : m = 1 := by omega
        subst this; exact ⟨1, le_rfl, le_rfl, h1, h2⟩

/-- A point on the inner side of every edge is in the convex hull of the vertices. -/
theorem inner_conv {pts vs : List Pt} (h : IsHull pts vs) {p : Pt} (hp : InnerSide vs p) : toQ p ∈ conv vs := by
  have h3 := h.three
  obtain ⟨j, hj1, hj2, hg1, hg2⟩ := sign_change (fun j => cross (vs.getD 0 (0, 0)) (vs.getD j (0, 0)) p) (vs.length - 1) (by omega)
    (by have := hp 0 (by omega); rwa [Nat.mod_eq_of_lt (by omega)] at this)
    (by
      have := hp (vs.length - 1) (by omega)
      rw [show vs.length - 1 + 1 = vs.length by omega, Nat.mod_self] at this
      unfold cross at this ⊢
      linarith)
  have he := hp j (by omega)
  rw [Nat.mod_eq_of_lt (by omega)] at he
  have hD := h.convex 0 j (j + 1) (by omega) (by omega) (by omega)
  have hmem : ∀ i < vs.length, vs.getD i (0, 0) ∈ vs := by
    intro i hi; rw [List.getD_eq_getElem _ _ hi]; exact List.getElem_mem hi
  have m0 := hmem 0 (by omega)
  have m1 := hmem j (by omega)
  have m2 := hmem (j + 1) (by omega)
  generalize vs.getD 0 (0, 0) = a at *
  generalize vs.getD j (0, 0) = b at *
  generalize vs.getD (j + 1) (0, 0) = c at *
  have hDq : (0 : ℚ) < (cross a b c : ℚ) := by exact_mod_cast hD
  have := conv_three m0 m1 m2 (u := cross b c p / cross a b c) (v := -cross a c p / cross a b c) (w := cross a b p / cross a b c)
    (div_nonneg (by exact_mod_cast he) hDq.le) (div_nonneg (by have : (cross a c p : ℚ) ≤ 0 := by exact_mod_cast hg2
                                                               linarith) hDq.le)
    (div_nonneg (by exact_mod_cast hg1) hDq.le)
    (by
      rw [← add_div, ← add_div, div_eq_one_iff_eq hDq.ne']
      unfold cross; push_cast; ring)
  convert this using 1
  unfold toQ
  rw [Prod.mk.injEq]
  constructor
  · rw [eq_comm]
    field_simp
    unfold cross; push_cast; ring
  · rw [eq_comm]
    field_simp
    unfold cross; push_cast; ring

theorem cross_start (a b : Pt) : cross a b a = 0 := by unfold cross; ring

theorem cross_end (a b : Pt) : cross a b b = 0 := by unfold cross; ring

/-- A point of the convex hull is on the inner side of every edge. -/
theorem conv_inner {pts vs : List Pt} (h : IsHull pts vs) {p : Pt} (hp : toQ p ∈ conv vs) : InnerSide vs p := by
  intro j hj
  have h3 := h.three
  have hhalf : ∀ v ∈ vs, 0 ≤ cross (vs.getD j (0, 0)) (vs.getD ((j + 1) % vs.length) (0, 0)) v := by
    intro v hv
    obtain ⟨k, hk, rfl⟩ := List.getElem_of_mem hv
    rw [← List.getD_eq_getElem _ (0, 0) hk]
    by_cases hl : j + 1 = vs.length
    · rw [hl, Nat.mod_self]
      rcases Nat.lt_trichotomy k 0 with hk0 | hk0 | hk0
      · omega
      · subst hk0; exact (cross_end _ _).ge
      · rcases Nat.lt_trichotomy k j with hkj | hkj | hkj
        · have := h.convex 0 k j hk0 hkj hj
          unfold cross at this ⊢
          linarith
        · subst hkj; exact (cross_start _ _).ge
        · omega
    · rw [Nat.mod_eq_of_lt (by omega)]
      rcases Nat.lt_trichotomy k j with hkj | hkj | hkj
      · have := h.convex k j (j + 1) hkj (by omega) (by omega)
        unfold cross at this ⊢
        linarith
      · subst hkj; exact (cross_start _ _).ge
      · rcases Nat.lt_trichotomy k (j + 1) with hkj' | hkj' | hkj'
        · omega
        · subst hkj'; exact (cross_end _ _).ge
        · exact (h.convex j (j + 1) k (by omega) hkj' hk).le
  generalize vs.getD j (0, 0) = a at *
  generalize vs.getD ((j + 1) % vs.length) (0, 0) = b at *
  have := conv_half (pts := vs) (a := -((b.2 : ℚ) - a.2)) (b := (b.1 : ℚ) - a.1)
    (c := ((b.1 : ℚ) - a.1) * a.2 - ((b.2 : ℚ) - a.2) * a.1)
    (by
      intro v hv
      have : (0 : ℚ) ≤ (cross a b v : ℚ) := by exact_mod_cast hhalf v hv
      unfold cross at this
      push_cast at this
      linarith) hp
  unfold toQ at this
  have h' : (0 : ℚ) ≤ (cross a b p : ℚ) := by
    unfold cross; push_cast; dsimp only at this; linarith
  exact_mod_cast h'

/-! ### Extremes -/

theorem foldl_min_le (l : List Int) : ∀ a, l.foldl min a ≤ a ∧ ∀ x ∈ l, l.foldl min a ≤ x := by
  induction l with
  | nil => intro a; simp
  | cons b l ih =>
    intro a
    obtain ⟨h1, h2⟩ := ih (min a b)
    simp only [List.foldl_cons]
    refine ⟨by omega, ?_⟩
    intro x hx
    rcases List.mem_cons.mp hx with rfl | hx
    · omega
    · exact h2 x hx

theorem foldl_min_mem (l : List Int) : ∀ a, l.foldl min a = a ∨ l.foldl min a ∈ l := by
  induction l with
  | nil => intro a; simp
  | cons b l ih =>
    intro a
    simp only [List.foldl_cons]
    rcases ih (min a b) with h | h
    · rw [h]
      rcases min_choice a b with h' | h' <;> rw [h'] <;> simp
    · exact Or.inr (List.mem_cons_of_mem _ h)

theorem listMin_spec {l : List Int} (hne : l ≠ []) : listMin l ∈ l ∧ ∀ x ∈ l, listMin l ≤ x := by
  cases l with
  | nil => exact absurd rfl hne
  | cons a l =>
    refine ⟨?_, ?_⟩
    · rcases foldl_min_mem l a with h | h
      · rw [listMin, h]; simp
      · exact List.mem_cons_of_mem _ h
    · intro x hx
      rcases List.mem_cons.mp hx with rfl | hx
      · exact (foldl_min_le l _).1
      · exact (foldl_min_le l a).2 x hx

theorem foldl_max_le (l : List Int) : ∀ a, a ≤ l.foldl max a ∧ ∀ x ∈ l, x ≤ l.foldl max a := by
  induction l with
  | nil => intro a; simp
  | cons b l ih =>
    intro a
    obtain ⟨h1, h2⟩ := ih (max a b)
    simp only [List.foldl_cons]
    refine ⟨by omega, ?_⟩
    intro x hx
    rcases List.mem_cons.mp hx with rfl | hx
    · omega
    · exact h2 x hx

theorem foldl_max_mem (l : List Int) : ∀ a, l.foldl max a = a ∨ l.foldl max a ∈ l := by
  induction l with
  | nil => intro a; simp
  | cons b l ih =>
    intro a
    simp only [List.foldl_cons]
    rcases ih (max a b) with h | h
    · rw [h]
      rcases max_choice a b with h' | h' <;> rw [h'] <;> simp
    · exact Or.inr (List.mem_cons_of_mem _ h)

theorem listMax_spec {l : List Int} (hne : l ≠ []) : listMax l ∈ l ∧ ∀ x ∈ l, x ≤ listMax l := by
  cases l with
  | nil => exact absurd rfl hne
  | cons a l =>
    refine ⟨?_, ?_⟩
    · rcases foldl_max_mem l a with h | h
      · rw [listMax, h]; simp
      · exact List.mem_cons_of_mem _ h
    · intro x hx
      rcases List.mem_cons.mp hx with rfl | hx
      · exact (foldl_max_le l _).1
      · exact (foldl_max_le l a).2 x hx

theorem listMin_eq {l : List Int} {m : Int} (hm : m ∈ l) (h : ∀ x ∈ l, m ≤ x) : listMin l = m := by
  have := listMin_spec (List.ne_nil_of_mem hm)
  exact le_antisymm (this.2 m hm) (h _ this.1)

theorem listMax_eq {l : List Int} {m : Int} (hm : m ∈ l) (h : ∀ x ∈ l, x ≤ m) : listMax l = m := by
  have := listMax_spec (List.ne_nil_of_mem hm)
  exact le_antisymm (h _ this.1) (this.2 m hm)

/-- The corners have the extremes of the points. -/
theorem IsHull.extremes {pts vs : List Pt} (h : IsHull pts vs) : minX vs.reverse = minX pts ∧ maxX vs.reverse = maxX pts ∧
    minY vs.reverse = minY pts ∧ maxY vs.reverse = maxY pts := by
  have hne : vs ≠ [] := by intro e; have := h.three; rw [e] at this; simp at this
  have hpts : pts ≠ [] := by
    obtain ⟨v, hv⟩ := List.exists_mem_of_ne_nil _ hne
    exact List.ne_nil_of_mem (h.sub v hv)
  have half := fun (a b c : Int) (hc : ∀ v ∈ vs, c ≤ a * v.1 + b * v.2) (p : Pt) (hp : p ∈ pts) =>
    conv_half (pts := vs) (a := a) (b := b) (c := c) (by intro v hv; exact_mod_cast hc v hv) (h.cover p hp)
  unfold minX maxX minY maxY
  refine ⟨?_, ?_, ?_, ?_⟩
  · obtain ⟨h1, h2⟩ := listMin_spec (l := pts.map Prod.fst) (by simpa using hpts)
    obtain ⟨h3, h4⟩ := listMin_spec (l := vs.reverse.map Prod.fst) (by simpa using hne)
    obtain ⟨p, hp, hpe⟩ := List.mem_map.mp h1
    obtain ⟨v, hv, hve⟩ := List.mem_map.mp h3
    apply le_antisymm
    · have := half 1 0 (listMin (vs.reverse.map Prod.fst))
        (by intro v hv; have := h4 v.1 (List.mem_map_of_mem (by simpa using hv)); linarith) p hp
      unfold toQ at this
      push_cast at this
      have h' : ((listMin (vs.reverse.map Prod.fst) : Int) : ℚ) ≤ (p.1 : ℚ) := by linarith
      rw [← hpe]; exact_mod_cast h'
    · rw [← hve]; exact h2 _ (List.mem_map_of_mem (h.sub v (by simpa using hv)))
  · obtain ⟨h1, h2⟩ := listMax_spec (l := pts.map Prod.fst) (by simpa using hpts)
    obtain ⟨h3, h4⟩ := listMax_spec (l := vs.reverse.map Prod.fst) (by simpa using hne)
    obtain ⟨p, hp, hpe⟩ := List.mem_map.mp h1
    obtain ⟨v, hv, hve⟩ := List.mem_map.mp h3
    apply le_antisymm
    · rw [← hve]; exact h2 _ (List.mem_map_of_mem (h.sub v (by simpa using hv)))
    · have := half (-1) 0 (-listMax (vs.reverse.map Prod.fst))
        (by intro v hv; have := h4 v.1 (List.mem_map_of_mem (by simpa using hv)); linarith) p hp
      unfold toQ at this
      push_cast at this
      have h' : (p.1 : ℚ) ≤ ((listMax (vs.reverse.map Prod.fst) : Int) : ℚ) := by linarith
      rw [← hpe]; exact_mod_cast h'
  · obtain ⟨h1, h2⟩ := listMin_spec (l := pts.map Prod.snd) (by simpa using hpts)
    obtain ⟨h3, h4⟩ := listMin_spec (l := vs.reverse.map Prod.snd) (by simpa using hne)
    obtain ⟨p, hp, hpe⟩ := List.mem_map.mp h1
    obtain ⟨v, hv, hve⟩ := List.mem_map.mp h3
    apply le_antisymm
    · have := half 0 1 (listMin (vs.reverse.map Prod.snd))
        (by intro v hv; have := h4 v.2 (List.mem_map_of_mem (by simpa using hv)); linarith) p hp
      unfold toQ at this
      push_cast at this
      have h' : ((listMin (vs.reverse.map Prod.snd) : Int) : ℚ) ≤ (p.2 : ℚ) := by linarith
      rw [← hpe]; exact_mod_cast h'
    · rw [← hve]; exact h2 _ (List.mem_map_of_mem (h.sub v (by simpa using hv)))
  · obtain ⟨h1, h2⟩ := listMax_spec (l := pts.map Prod.snd) (by simpa using hpts)
    obtain ⟨h3, h4⟩ := listMax_spec (l := vs.reverse.map Prod.snd) (by simpa using hne)
    obtain ⟨p, hp, hpe⟩ := List.mem_map.mp h1
    obtain ⟨v, hv, hve⟩ := List.mem_map.mp h3
    apply le_antisymm
    · rw [← hve]; exact h2 _ (List.mem_map_of_mem (h.sub v (by simpa using hv)))
    · have := half 0 (-1) (-listMax (vs.reverse.map Prod.snd))
        (by intro v hv; have := h4 v.2 (List.mem_map_of_mem (by simpa using hv)); linarith) p hp
      unfold toQ at this
      push_cast at this
      have h' : (p.2 : ℚ) ≤ ((listMax (vs.reverse.map Prod.snd) : Int) : ℚ) := by linarith
      rw [← hpe]; exact_mod_cast h'

theorem box_extremes (xl xu yl yu : Int) : let c := [(xl, yl), (xl, yu), (xu, yu), (xu, yl)]
    minX c = min xl xu ∧ maxX c = max xl xu ∧ minY c = min yl yu ∧ maxY c = max yl yu := by
  simp only [minX, maxX, minY, maxY, List.map_cons, List.map_nil, listMin, listMax, List.foldl_cons, List.foldl_nil]
  refine ⟨?_, ?_, ?_, ?_⟩ <;> omega

/-- What is known of a new box. -/
theorem mkBox_ok {hull : HullFn} (hh : BoxHull hull) {xl xu yl yu : Int} (hx : xl ≠ xu) (hy : yl ≠ yu)
    (mask : Option (List (Int × Int))) : ∃ r, mkBox hull xl xu yl yu mask = .ok r ∧ r.isBox = true ∧
      minX r.corners = min xl xu ∧ maxX r.corners = max xl xu ∧ minY r.corners = min yl yu ∧ maxY r.corners = max yl yu ∧
      r.vertices = [(xl, yl), (xl, yu), (xu, yu), (xu, yl)] ∧ r.npx = (|xu - xl + 1|, |yu - yl + 1|) ∧
      r.mask = (match mask with
        | none => mesh r.corners
        | some m => m.filter fun p => decide (p.2 ≥ min xl xu ∧ p.2 ≤ max xl xu ∧ p.1 ≥ min yl yu ∧ p.1 ≤ max yl yu)) ∧
      r.weights = r.mask.map fun _ => 1 := by
  obtain ⟨vs, h1, h2⟩ := hh.ok xl xu yl yu hx hy
  obtain ⟨e1, e2, e3, e4⟩ := h2.extremes
  obtain ⟨b1, b2, b3, b4⟩ := box_extremes xl xu yl yu
  unfold mkBox
  rw [h1]
  refine ⟨_, rfl, rfl, by rw [e1, b1], by rw [e2, b2], by rw [e3, b3], by rw [e4, b4], rfl, rfl, ?_, rfl⟩
  cases mask with
  | none => rfl
  | some m =>
    dsimp only
    rw [e1, e2, e3, e4, b1, b2, b3, b4]

theorem mkBox_flat {hull : HullFn} (hh : BoxHull hull) {xl xu yl yu : Int} (h : xl = xu ∨ yl = yu)
    (mask : Option (List (Int × Int))) : mkBox hull xl xu yl yu mask = .error .runtimeError := by
  unfold mkBox
  rw [hh.flat _ _ _ _ h]

/-! ### A hull function for boxes -/

/-- A hull function that knows boxes: the corners in counter-clockwise order. -/
def boxHull : HullFn
  | [(xl, yl), (_, _), (xu, yu), (_, _)] =>
    if xl = xu ∨ yl = yu then .error .runtimeError
    else .ok [(min xl xu, min yl yu), (max xl xu, min yl yu), (max xl xu, max yl yu), (min xl xu, max yl yu)]
  | _ => .error .runtimeError

theorem boxHull_spec : BoxHull boxHull where
  ok := by
    intro xl xu yl yu hx hy
    refine ⟨[(min xl xu, min yl yu), (max xl xu, min yl yu), (max xl xu, max yl yu), (min xl xu, max yl yu)], ?_, ?_⟩
    · exact if_neg (by tauto)
    · have hx' : min xl xu < max xl xu := by omega
      have hy' : min yl yu < max yl yu := by omega
      refine ⟨?_, by simp, ?_, ?_⟩
      · intro v hv
        simp only [List.mem_cons, List.not_mem_nil, or_false] at hv ⊢
        rcases le_total xl xu with h | h <;> rcases le_total yl yu with h' | h' <;>
          simp only [h, h', min_eq_left, min_eq_right, max_eq_left, max_eq_right] at hv <;> tauto
      · intro i j k hij hjk hk
        simp only [List.length_cons, List.length_nil] at hk
        have hp : 0 < (max xl xu - min xl xu) * (max yl yu - min yl yu) := mul_pos (by omega) (by omega)
        generalize min xl xu = a at *
        generalize max xl xu = b at *
        generalize min yl yu = c at *
        generalize max yl yu = d at *
        have : k = 2 ∨ k = 3 := by omega
        have hj : j = 1 ∨ j = 2 := by omega
        have hi : i = 0 ∨ i = 1 := by omega
        rcases this with rfl | rfl <;> rcases hj with rfl | rfl <;> rcases hi with rfl | rfl <;>
          first
            | omega
            | (simp only [cross, List.getD_cons_zero, List.getD_cons_succ]; nlinarith)
      · intro p hp
        apply conv_mem
        simp only [List.mem_cons, List.not_mem_nil, or_false] at hp ⊢
        rcases le_total xl xu with h | h <;> rcases le_total yl yu with h' | h' <;>
          simp only [h, h', min_eq_left, min_eq_right, max_eq_left, max_eq_right] <;> tauto
  flat := by
    intro xl xu yl yu h
    exact if_pos h

/-! ### The mesh -/

theorem mem_arange {lo hi x : Int} : x ∈ arange lo hi ↔ lo ≤ x ∧ x < hi := by
  unfold arange
  rw [List.mem_map]
  constructor
  · rintro ⟨k, hk, rfl⟩
    rw [List.mem_range] at hk
    omega
  · intro h
    exact ⟨(x - lo).toNat, by rw [List.mem_range]; omega, by omega⟩

theorem arange_nodup (lo hi : Int) : (arange lo hi).Nodup := by
  unfold arange
  exact List.nodup_range.map (by intro a b h; dsimp only at h; omega)

theorem mem_mesh {c : List Pt} {y x : Int} : (y, x) ∈ mesh c ↔ minX c ≤ x ∧ x ≤ maxX c ∧ minY c ≤ y ∧ y ≤ maxY c := by
  unfold mesh
  simp only [List.mem_flatMap, List.mem_map, mem_arange, Prod.mk.injEq]
  constructor
  · rintro ⟨x', hx, y', hy, rfl, rfl⟩
    omega
  · intro h
    exact ⟨x, by omega, y, by omega, rfl, rfl⟩

theorem mesh_nodup (c : List Pt) : (mesh c).Nodup := by
  unfold mesh
  rw [List.nodup_flatMap]
  refine ⟨fun x _ => (arange_nodup _ _).map (by intro a b h; simpa using h), ?_⟩
  refine (arange_nodup _ _).imp ?_
  intro a b hab p hp hp'
  simp only [List.mem_map] at hp hp'
  obtain ⟨y, _, rfl⟩ := hp
  obtain ⟨y', _, h⟩ := hp'
  exact hab (by simpa using (congrArg Prod.snd h).symm)

/-- Points of the convex hull are within the extremes of the corners. -/
theorem IsHull.bounds {pts vs : List Pt} (hh : IsHull pts vs) {x y : Int} (h : toQ (x, y) ∈ conv vs) :
    minX vs.reverse ≤ x ∧ x ≤ maxX vs.reverse ∧ minY vs.reverse ≤ y ∧ y ≤ maxY vs.reverse := by
  have hne : vs ≠ [] := by intro e; have := hh.three; rw [e] at this; simp at this
  obtain ⟨-, a1⟩ := listMin_spec (l := vs.reverse.map Prod.fst) (by simpa using hne)
  obtain ⟨-, a2⟩ := listMax_spec (l := vs.reverse.map Prod.fst) (by simpa using hne)
  obtain ⟨-, a3⟩ := listMin_spec (l := vs.reverse.map Prod.snd) (by simpa using hne)
  obtain ⟨-, a4⟩ := listMax_spec (l := vs.reverse.map Prod.snd) (by simpa using hne)
  have half := fun (a b c : Int) (hc : ∀ v ∈ vs, c ≤ a * v.1 + b * v.2) =>
    conv_half (pts := vs) (a := a) (b := b) (c := c) (by intro v hv; exact_mod_cast hc v hv) h
  have b1 := half 1 0 (minX vs.reverse)
    (by intro v hv; have := a1 v.1 (List.mem_map_of_mem (by simpa using hv)); unfold minX; linarith)
  have b2 := half (-1) 0 (-maxX vs.reverse)
    (by intro v hv; have := a2 v.1 (List.mem_map_of_mem (by simpa using hv)); unfold maxX; linarith)
  have b3 := half 0 1 (minY vs.reverse)
    (by intro v hv; have := a3 v.2 (List.mem_map_of_mem (by simpa using hv)); unfold minY; linarith)
  have b4 := half 0 (-1) (-maxY vs.reverse)
    (by intro v hv; have := a4 v.2 (List.mem_map_of_mem (by simpa using hv)); unfold maxY; linarith)
  unfold toQ at b1 b2 b3 b4
  push_cast at b1 b2 b3 b4
  refine ⟨?_, ?_, ?_, ?_⟩
  · have h' : ((minX vs.reverse : Int) : ℚ) ≤ (x : ℚ) := by linarith
    exact_mod_cast h'
  · have h' : (x : ℚ) ≤ ((maxX vs.reverse : Int) : ℚ) := by linarith
    exact_mod_cast h'
  · have h' : ((minY vs.reverse : Int) : ℚ) ≤ (y : ℚ) := by linarith
    exact_mod_cast h'
  · have h' : (y : ℚ) ≤ ((maxY vs.reverse : Int) : ℚ) := by linarith
    exact_mod_cast h'

/-! ### C67 -/

/-- **C67.** A point is in a box exactly if it is between the limits. -/
theorem C67_box {hull : HullFn} (hh : BoxHull hull) (xl xu yl yu : Int) (hx : xl < xu) (hy : yl < yu)
    (mask : Option (List (Int × Int))) : ∃ r, mkBox hull xl xu yl yu mask = .ok r ∧
      ∀ x y : Int, r.contains (toQ (x, y)) = true ↔ xl ≤ x ∧ x ≤ xu ∧ yl ≤ y ∧ y ≤ yu := by
  obtain ⟨r, h1, h2, e1, e2, e3, e4, _⟩ := mkBox_ok hh (ne_of_lt hx) (ne_of_lt hy) mask
  refine ⟨r, h1, fun x y => ?_⟩
  unfold Region.contains boxContains toQ
  rw [h2, if_pos rfl, e1, e2, e3, e4, decide_eq_true_iff, min_eq_left hx.le, min_eq_left hy.le, max_eq_right hx.le,
    max_eq_right hy.le]
  dsimp only
  constructor
  · rintro ⟨a, b, c, d⟩
    exact ⟨by exact_mod_cast a, by exact_mod_cast b, by exact_mod_cast c, by exact_mod_cast d⟩
  · rintro ⟨a, b, c, d⟩
    exact ⟨by exact_mod_cast a, by exact_mod_cast b, by exact_mod_cast c, by exact_mod_cast d⟩

/-- **C67.** A pixel is in a convex hull exactly if it is in the convex hull, as a set of the plane, of the given points: the
tolerance of half a pixel never matters for integer coordinates. -/
theorem C67_hull {hull : HullFn} {pts vs : List Pt} (hv : hull pts = .ok vs) (hh : IsHull pts vs) (mask : Option (List (Int × Int)))
    (check : Bool) : ∃ r, mkHull hull pts mask check = .ok r ∧
      ∀ x y : Int, r.contains (toQ (x, y)) = true ↔ ((x : ℚ), (y : ℚ)) ∈ convexHull ℚ {q : ℚ × ℚ | ∃ p ∈ pts, ((p.1 : ℚ), (p.2 : ℚ)) = q} := by
  unfold mkHull
  rw [hv]
  refine ⟨_, rfl, fun x y => ?_⟩
  show hullContains vs.reverse (toQ (x, y)) = true ↔ toQ (x, y) ∈ conv pts
  rw [hullContains_iff vs hh.three, ← hh.conv_eq]
  exact ⟨inner_conv hh, conv_inner hh⟩

/-- **C67.** The pixels of a hull made without a mask are exactly its integer points, each once. -/
theorem C67_mask {hull : HullFn} {pts vs : List Pt} (hv : hull pts = .ok vs) (hh : IsHull pts vs) :
    ∃ r, mkHull hull pts none true = .ok r ∧ r.mask.Nodup ∧
      ∀ y x : Int, (y, x) ∈ r.mask ↔ ((x : ℚ), (y : ℚ)) ∈ convexHull ℚ {q : ℚ × ℚ | ∃ p ∈ pts, ((p.1 : ℚ), (p.2 : ℚ)) = q} := by
  unfold mkHull
  rw [hv]
  refine ⟨_, rfl, ?_, ?_⟩
  · exact (mesh_nodup _).filter _
  · intro y x
    obtain ⟨e1, e2, e3, e4⟩ := hh.extremes
    simp only [Option.getD_none, List.mem_filter, Bool.not_true, Bool.false_or]
    rw [mem_mesh]
    show _ ∧ hullContains vs.reverse (toQ (x, y)) = true ↔ toQ (x, y) ∈ conv pts
    rw [hullContains_iff vs hh.three, ← hh.conv_eq]
    constructor
    · exact fun h => inner_conv hh h.2
    · intro h
      refine ⟨?_, conv_inner hh h⟩
      exact hh.bounds h

/-- A hull function for the points of the following examples. -/
def exampleHull : HullFn := fun pts => if pts = [(0, 0), (4, 0), (1, 1), (0, 3)] then .ok [(0, 0), (4, 0), (0, 3)] else .error .runtimeError

/-- The hypotheses can be met: four points, one of them inside. -/
theorem exampleHull_spec : IsHull [(0, 0), (4, 0), (1, 1), (0, 3)] [(0, 0), (4, 0), (0, 3)] where
  sub := by decide
  three := by decide
  convex := by
    intro i j k hij hjk hk
    simp only [List.length_cons, List.length_nil] at hk
    obtain ⟨rfl, rfl, rfl⟩ : i = 0 ∧ j = 1 ∧ k = 2 := by omega
    decide
  cover := by
    intro p hp
    simp only [List.mem_cons, List.not_mem_nil, or_false] at hp
    rcases hp with rfl | rfl | rfl | rfl
    · exact conv_mem (by simp)
    · exact conv_mem (by simp)
    · have := conv_three (pts := [(0, 0), (4, 0), (0, 3)]) (a := (0, 0)) (b := (4, 0)) (c := (0, 3)) (by simp) (by simp) (by simp)
        (u := 5 / 12) (v := 1 / 4) (w := 1 / 3) (by norm_num) (by norm_num) (by norm_num) (by norm_num)
      norm_num at this
      unfold toQ
      norm_num
      exact this
    · exact conv_mem (by simp)

example : ∃ r, mkHull exampleHull [(0, 0), (4, 0), (1, 1), (0, 3)] none true = .ok r ∧ (2, 1) ∈ r.mask ∧ (2, 2) ∉ r.mask ∧
    r.contains (toQ (2, 1)) = true ∧ r.contains (toQ (3, 1)) = false := by
  refine ⟨_, rfl, ?_, ?_, ?_, ?_⟩ <;> decide +kernel

example : (mkHull exampleHull [(0, 0), (4, 0), (1, 1), (0, 3)] none true).toOption.isSome = true ∧
    IsHull [(0, 0), (4, 0), (1, 1), (0, 3)] [(0, 0), (4, 0), (0, 3)] := ⟨rfl, exampleHull_spec⟩

/-- The tolerance is relative to the length of the edge and not a distance: a point that is nearly a quarter of a pixel away from a
short edge is accepted, one that is a tenth of a pixel away from a long edge is not. This concerns points that are not pixels. -/
theorem C67_tolerance : hullContains [(0, 0), (0, 2), (2, 2), (2, 0)] (-(24 / 100), 1) = true ∧
    hullContains [(0, 0), (0, 20), (20, 20), (20, 0)] (-(1 / 10), 10) = false := by
  constructor <;> decide +kernel

end Verif.Linalg.Geometry
