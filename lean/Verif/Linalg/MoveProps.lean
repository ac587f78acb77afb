/-
C179: regions do not depend on where the origin of the image is (africanus/linalg/geometry.py).
-/
import Verif.Linalg.BoxProps
import Verif.Linalg.Overlap
import Mathlib.Tactic.Linarith
import Mathlib.Tactic.Ring

set_option autoImplicit false

namespace Verif.Linalg.Geometry

/-! ### Specification -/

/-- A point after a shift of the origin. -/
def shiftPt (t p : Pt) : Pt := (p.1 + t.1, p.2 + t.2)

/-- A pixel `(y, x)` after a shift of the origin. -/
def shiftPixel (t : Pt) (p : Int × Int) : Int × Int := (p.1 + t.2, p.2 + t.1)

/-- A region after a shift of the origin: points and pixels move, sizes and weights do not. -/
def shiftRegion (t : Pt) (r : Region) : Region :=
  ⟨r.vertices.map (shiftPt t), r.corners.map (shiftPt t), r.mask.map (shiftPixel t), r.weights, r.isBox, r.npx⟩

/-- What is asked of `scipy.spatial.ConvexHull` here: it does not depend on the origin either, and its hulls have vertices. -/
structure ShiftHull (hull : HullFn) : Prop where
  shift : ∀ t pts, hull (pts.map (shiftPt t)) = (hull pts).map fun vs => vs.map (shiftPt t)
  some : ∀ pts vs, hull pts = .ok vs → vs ≠ []

/-- All vertices of the region have coordinates that are not negative. -/
def NonNeg (r : Region) : Prop := ∀ p ∈ r.vertices, 0 ≤ p.1 ∧ 0 ≤ p.2

/-! ### Lemmas -/

private theorem foldl_min_add (l : List Int) (t : Int) : ∀ a, (l.map (· + t)).foldl min (a + t) = l.foldl min a + t := by
  induction l with
  | nil => intro a; rfl
  | cons b l ih =>
    intro a
    simp only [List.map_cons, List.foldl_cons]
    rw [← ih, min_add_add_right]

private theorem foldl_max_add (l : List Int) (t : Int) : ∀ a, (l.map (· + t)).foldl max (a + t) = l.foldl max a + t := by
  induction l with
  | nil => intro a; rfl
  | cons b l ih =>
    intro a
    simp only [List.map_cons, List.foldl_cons]
    rw [← ih, max_add_add_right]

private theorem listMin_add {l : List Int} (h : l ≠ []) (t : Int) : listMin (l.map (· + t)) = listMin l + t := by
  cases l with
  | nil => exact absurd rfl h
  | cons a l => exact foldl_min_add l t a

private theorem listMax_add {l : List Int} (h : l ≠ []) (t : Int) : listMax (l.map (· + t)) = listMax l + t := by
  cases l with
  | nil => exact absurd rfl h
  | cons a l => exact foldl_max_add l t a

private theorem map_fst (t : Pt) (c : List Pt) : (c.map (shiftPt t)).map Prod.fst = (c.map Prod.fst).map (· + t.1) := by
  simp [List.map_map, Function.comp_def, shiftPt]

private theorem map_snd (t : Pt) (c : List Pt) : (c.map (shiftPt t)).map Prod.snd = (c.map Prod.snd).map (· + t.2) := by
  simp [List.map_map, Function.comp_def, shiftPt]

private theorem minX_shift (t : Pt) {c : List Pt} (h : c ≠ []) : minX (c.map (shiftPt t)) = minX c + t.1 := by
  unfold minX; rw [map_fst, listMin_add (by simpa using h)]

private theorem maxX_shift (t : Pt) {c : List Pt} (h : c ≠ []) : maxX (c.map (shiftPt t)) = maxX c + t.1 := by
  unfold maxX; rw [map_fst, listMax_add (by simpa using h)]

private theorem minY_shift (t : Pt) {c : List Pt} (h : c ≠ []) : minY (c.map (shiftPt t)) = minY c + t.2 := by
  unfold minY; rw [map_snd, listMin_add (by simpa using h)]

private theorem maxY_shift (t : Pt) {c : List Pt} (h : c ≠ []) : maxY (c.map (shiftPt t)) = maxY c + t.2 := by
  unfold maxY; rw [map_snd, listMax_add (by simpa using h)]

private theorem getD_shift (t : Pt) (c : List Pt) {i : Nat} (h : i < c.length) :
    (c.map (shiftPt t)).getD i (0, 0) = shiftPt t (c.getD i (0, 0)) := by
  simp [List.getD, h]

private theorem edgeVec_shift (t : Pt) (c : List Pt) {i : Nat} (h : i < c.length) : edgeVec (c.map (shiftPt t)) i = edgeVec c i := by
  unfold edgeVec nextCorner
  rw [List.length_map, getD_shift t c h, getD_shift t c (Nat.mod_lt _ (by omega))]
  simp only [shiftPt]
  ext <;> ring

private theorem lnormals_shift (t : Pt) (c : List Pt) : lnormals (c.map (shiftPt t)) = lnormals c := by
  unfold lnormals
  rw [List.length_map]
  refine List.map_congr_left fun i hi => ?_
  rw [edgeVec_shift t c (List.mem_range.1 hi)]

private theorem rnormals_shift (t : Pt) (c : List Pt) : rnormals (c.map (shiftPt t)) = rnormals c := by
  unfold rnormals
  rw [List.length_map]
  refine List.map_congr_left fun i hi => ?_
  rw [edgeVec_shift t c (List.mem_range.1 hi)]

private theorem hullContains_shift (t : Pt) (c : List Pt) (s : Rat × Rat) :
    hullContains (c.map (shiftPt t)) (s.1 + t.1, s.2 + t.2) = hullContains c s := by
  unfold hullContains
  rw [rnormals_shift, List.length_map, Bool.eq_iff_iff]
  simp only [List.all_eq_true]
  refine forall_congr' fun i => forall_congr' fun hi => ?_
  rw [getD_shift t c (List.mem_range.1 hi)]
  simp only [shiftPt, Int.cast_add, add_sub_add_right_eq_sub]

private theorem boxContains_shift (t : Pt) {c : List Pt} (h : c ≠ []) (s : Rat × Rat) :
    boxContains (c.map (shiftPt t)) (s.1 + t.1, s.2 + t.2) = boxContains c s := by
  unfold boxContains
  rw [minX_shift t h, maxX_shift t h, minY_shift t h, maxY_shift t h]
  simp only [Int.cast_add, ge_iff_le, add_le_add_iff_right]

private theorem arange_shift (lo hi t : Int) : arange (lo + t) (hi + t) = (arange lo hi).map (· + t) := by
  unfold arange
  rw [add_sub_add_right_eq_sub, List.map_map]
  refine List.map_congr_left fun k _ => ?_
  simp only [Function.comp_apply]
  ring

private theorem mesh_shift (t : Pt) {c : List Pt} (h : c ≠ []) : mesh (c.map (shiftPt t)) = (mesh c).map (shiftPixel t) := by
  unfold mesh
  rw [minX_shift t h, maxX_shift t h, minY_shift t h, maxY_shift t h, add_right_comm (maxX c), add_right_comm (maxY c), arange_shift,
    arange_shift, List.flatMap_map, List.map_flatMap]
  refine List.flatMap_congr fun x _ => ?_
  rw [List.map_map, List.map_map]
  rfl

private theorem filter_shift (t : Pt) (m : List (Int × Int)) (f g : Int × Int → Bool) (h : ∀ p, f (shiftPixel t p) = g p) :
    (m.map (shiftPixel t)).filter f = (m.filter g).map (shiftPixel t) := by
  rw [List.filter_map]
  congr 1
  refine List.filter_congr fun p _ => h p

private theorem reverse_ne {vs : List Pt} (h : vs ≠ []) : vs.reverse ≠ [] := by simpa using h

private theorem mkBox_shift {hull : HullFn} (hh : ShiftHull hull) (t : Pt) (xl xu yl yu : Int) (mask : Option (List (Int × Int))) :
    mkBox hull (xl + t.1) (xu + t.1) (yl + t.2) (yu + t.2) (mask.map fun m => m.map (shiftPixel t)) =
      (mkBox hull xl xu yl yu mask).map (shiftRegion t) := by
  have h := hh.shift t [(xl, yl), (xl, yu), (xu, yu), (xu, yl)]
  simp only [List.map_cons, List.map_nil, shiftPt] at h
  unfold mkBox
  rw [h]
  cases hv : hull [(xl, yl), (xl, yu), (xu, yu), (xu, yl)] with
  | error e => rfl
  | ok vs =>
    have hn := reverse_ne (hh.some _ _ hv)
    simp only [Except.map]
    rw [← List.map_reverse]
    have hf : ∀ m : List (Int × Int), (m.map (shiftPixel t)).filter (fun p => decide (p.2 ≥ minX (vs.reverse.map (shiftPt t)) ∧
        p.2 ≤ maxX (vs.reverse.map (shiftPt t)) ∧ p.1 ≥ minY (vs.reverse.map (shiftPt t)) ∧ p.1 ≤ maxY (vs.reverse.map (shiftPt t)))) =
        (m.filter fun p => decide (p.2 ≥ minX vs.reverse ∧ p.2 ≤ maxX vs.reverse ∧ p.1 ≥ minY vs.reverse ∧
            p.1 ≤ maxY vs.reverse)).map (shiftPixel t) := by
      intro m
      refine filter_shift t m _ _ fun p => ?_
      rw [minX_shift t hn, maxX_shift t hn, minY_shift t hn, maxY_shift t hn]
      simp only [shiftPixel, ge_iff_le, add_le_add_iff_right]
    have e1 : xu + t.1 - (xl + t.1) + 1 = xu - xl + 1 := by ring
    have e2 : yu + t.2 - (yl + t.2) + 1 = yu - yl + 1 := by ring
    cases mask with
    | none =>
      simp only [Option.map_none, mesh_shift t hn, e1, e2]
      simp only [shiftRegion, List.map_map, List.map_cons, List.map_nil, shiftPt, Function.comp_def]
    | some m =>
      simp only [Option.map_some, hf, e1, e2]
      simp only [shiftRegion, List.map_map, List.map_cons, List.map_nil, shiftPt, Function.comp_def]

private theorem tdiv_shift {a n t : Int} (hn : 0 < n) (ha : 0 ≤ a) (hb : 0 ≤ a + n * t) : Int.tdiv (a + n * t) n = Int.tdiv a n + t := by
  rw [Int.tdiv_eq_ediv_of_nonneg hb, Int.tdiv_eq_ediv_of_nonneg ha, Int.add_mul_ediv_left _ _ (by omega)]

private theorem sum_shift (l : List Int) (t : Int) : (l.map (· + t)).sum = l.sum + l.length * t := by
  induction l with
  | nil => simp
  | cons a l ih =>
    simp only [List.map_cons, List.sum_cons, List.length_cons, ih]
    push_cast
    ring

private theorem sum_nonneg' (l : List Int) (h : ∀ x ∈ l, 0 ≤ x) : 0 ≤ l.sum := by
  induction l with
  | nil => simp
  | cons a l ih =>
    have h1 := h a (by simp)
    have h2 := ih fun x hx => h x (by simp [hx])
    simp only [List.sum_cons]
    omega

private theorem meanTrunc_shift {l : List Int} (hl : l ≠ []) (t : Int) (h : ∀ x ∈ l, 0 ≤ x) (h' : ∀ x ∈ l, 0 ≤ x + t) :
    meanTrunc (l.map (· + t)) = meanTrunc l + t := by
  unfold meanTrunc
  have hp : 0 < (l.length : Int) := by exact_mod_cast List.length_pos_iff.2 hl
  rw [sum_shift, List.length_map, tdiv_shift hp (sum_nonneg' l h)]
  rw [← sum_shift]
  refine sum_nonneg' _ fun x hx => ?_
  obtain ⟨y, hy, rfl⟩ := List.mem_map.1 hx
  exact h' y hy

private theorem centre_shift {r : Region} (t : Pt) (hv : r.vertices ≠ []) (h : NonNeg r) (h' : NonNeg (shiftRegion t r)) :
    centre (shiftRegion t r) = ((centre r).1 + t.1, (centre r).2 + t.2) := by
  have hq : ∀ p ∈ r.vertices, 0 ≤ p.1 + t.1 ∧ 0 ≤ p.2 + t.2 := fun p hp => h' (shiftPt t p) (List.mem_map_of_mem hp)
  unfold centre
  simp only [shiftRegion, map_fst, map_snd]
  rw [meanTrunc_shift (by simpa using hv), meanTrunc_shift (by simpa using hv)]
  · intro x hx
    obtain ⟨p, hp, rfl⟩ := List.mem_map.1 hx
    exact (h p hp).2
  · intro x hx
    obtain ⟨p, hp, rfl⟩ := List.mem_map.1 hx
    exact (hq p hp).2
  · intro x hx
    obtain ⟨p, hp, rfl⟩ := List.mem_map.1 hx
    exact (h p hp).1
  · intro x hx
    obtain ⟨p, hp, rfl⟩ := List.mem_map.1 hx
    exact (hq p hp).1

private theorem mapM_shift {A B : Type} (f f' : A → Except PyErr B) (g : B → B) (s : A → A) (h : ∀ a, f' (s a) = (f a).map g) :
    ∀ l : List A, (l.map s).mapM f' = (l.mapM f).map fun r => r.map g := by
  intro l
  induction l with
  | nil => rfl
  | cons a l ih =>
    rw [List.map_cons, List.mapM_cons, List.mapM_cons, h, ih]
    cases f a with
    | error e => rfl
    | ok b =>
      cases l.mapM f with
      | error e => rfl
      | ok r => rfl

private theorem splitAxis_shift (l u t : Int) (n : Nat) :
    splitAxis (l + t) (u + t) n = (splitAxis l u n).map fun p => (p.1 + t, p.2 + t) := by
  unfold splitAxis
  rw [add_sub_add_right_eq_sub, List.map_map]
  refine List.map_congr_left fun i _ => ?_
  simp only [Function.comp_apply]
  generalize ceilDiv (u - l + 1) n = k
  refine Prod.ext (by ring) ?_
  by_cases hi : i + 1 = n
  · simp only [if_pos hi]
    rw [← max_add_add_right, ← min_add_add_right]
    congr 2
    ring
  · simp only [if_neg hi]
    ring

/-! ### C179 -/

/-- **C179.** Making a hull around shifted points gives the shifted hull: the same shape, the same pixels and the same errors, with
every form of mask, checked or not. -/
theorem C179_hull {hull : HullFn} (hh : ShiftHull hull) (t : Pt) (pts : List Pt) (mask : Option (List (Int × Int))) (check : Bool) :
    mkHull hull (pts.map (shiftPt t)) (mask.map fun m => m.map (shiftPixel t)) check =
      (mkHull hull pts mask check).map (shiftRegion t) := by
  unfold mkHull
  rw [hh.shift]
  cases hv : hull pts with
  | error e => rfl
  | ok vs =>
    have hn := reverse_ne (hh.some _ _ hv)
    simp only [Except.map]
    rw [← List.map_reverse]
    have hm : (mask.map fun m => m.map (shiftPixel t)).getD (mesh (vs.reverse.map (shiftPt t))) =
        (mask.getD (mesh vs.reverse)).map (shiftPixel t) := by
      cases mask with
      | none => exact mesh_shift t hn
      | some m => rfl
    rw [hm, filter_shift t _ _ fun p => !check || hullContains vs.reverse ((p.2 : Rat), (p.1 : Rat))]
    · simp only [shiftRegion, List.map_map, Function.comp_def]
    · intro p
      have := hullContains_shift t vs.reverse ((p.2 : Rat), (p.1 : Rat))
      simp only [shiftPixel, Int.cast_add]
      rw [← this]

/-- **C179.** The same for boxes made from limits. -/
theorem C179_box {hull : HullFn} (hh : ShiftHull hull) (t : Pt) (xl xu yl yu : Int) (mask : Option (List (Int × Int))) :
    mkBox hull (xl + t.1) (xu + t.1) (yl + t.2) (yu + t.2) (mask.map fun m => m.map (shiftPixel t)) =
      (mkBox hull xl xu yl yu mask).map (shiftRegion t) := mkBox_shift hh t xl xu yl yu mask

/-- **C179.** A shifted region contains the shifted points and no others. -/
theorem C179_contains (t : Pt) {r : Region} (hc : r.corners ≠ []) (s : Rat × Rat) :
    (shiftRegion t r).contains (s.1 + t.1, s.2 + t.2) = r.contains s := by
  unfold Region.contains
  simp only [shiftRegion]
  rw [hullContains_shift, boxContains_shift t hc]
  rfl

/-- **C179.** The filled mask, whose indices count from the lower corner of the region, stays as it is. -/
theorem C179_mask (t : Pt) {r : Region} (hc : r.corners ≠ []) (y x : Int) : filledMask (shiftRegion t r) y x = filledMask r y x := by
  have hl : ∀ (l : List ((Int × Int) × Rat)) (p : Int × Int),
      (l.map fun q => (shiftPixel t q.1, q.2)).lookup (shiftPixel t p) = l.lookup p := by
    intro l p
    induction l with
    | nil => rfl
    | cons q l ih =>
      obtain ⟨q, v⟩ := q
      have hb : (shiftPixel t p == shiftPixel t q) = (p == q) := by
        rw [Bool.eq_iff_iff, beq_iff_eq, beq_iff_eq, Prod.ext_iff, Prod.ext_iff]
        simp only [shiftPixel, add_left_inj]
      simp only [List.map_cons, List.lookup_cons, hb, ih]
  have hw : ∀ p, weightOf (shiftRegion t r).mask (shiftRegion t r).weights (shiftPixel t p) = weightOf r.mask r.weights p := by
    intro p
    unfold weightOf
    simp only [shiftRegion]
    rw [← hl _ p, List.map_reverse, List.zip_map_left]
    rfl
  unfold filledMask
  rw [show (shiftRegion t r).corners = r.corners.map (shiftPt t) from rfl, minX_shift t hc, maxX_shift t hc, minY_shift t hc,
    maxY_shift t hc, add_sub_add_right_eq_sub, add_sub_add_right_eq_sub, ← hw]
  simp only [shiftPixel, add_right_comm]

/-- **C179.** Two regions overlap, for every least distance, if and only if they do after both are shifted. -/
theorem C179_overlaps (t : Pt) (c1 c2 : List Pt) (h1 : c1 ≠ []) (h2 : c2 ≠ []) (d : ℝ) :
    overlapsWith (c1.map (shiftPt t)) (c2.map (shiftPt t)) d = overlapsWith c1 c2 d := by
  have hp : ∀ (c : List Pt) (n : Pt) (s : ℝ), projections (c.map (shiftPt t)) n s =
      (projections c n s).map (· + ((t.1 : ℝ) * (n.1 / s) + (t.2 : ℝ) * (n.2 / s))) := by
    intro c n s
    unfold projections
    rw [List.map_map, List.map_map]
    refine List.map_congr_left fun v _ => ?_
    simp only [Function.comp_apply, shiftPt]
    push_cast
    ring
  have hmin : ∀ (l : List ℝ) (a : ℝ), l ≠ [] → realMin (l.map (· + a)) = realMin l + a := by
    intro l a hl
    cases l with
    | nil => exact absurd rfl hl
    | cons b l =>
      clear hl
      simp only [List.map_cons, realMin]
      induction l generalizing b with
      | nil => rfl
      | cons c l ih =>
        simp only [List.map_cons, List.foldl_cons]
        rw [min_add_add_right, ih]
  have hmax : ∀ (l : List ℝ) (a : ℝ), l ≠ [] → realMax (l.map (· + a)) = realMax l + a := by
    intro l a hl
    cases l with
    | nil => exact absurd rfl hl
    | cons b l =>
      clear hl
      simp only [List.map_cons, realMax]
      induction l generalizing b with
      | nil => rfl
      | cons c l ih =>
        simp only [List.map_cons, List.foldl_cons]
        rw [max_add_add_right, ih]
  have hs : ∀ s n, Separates (c1.map (shiftPt t)) (c2.map (shiftPt t)) d s n ↔ Separates c1 c2 d s n := by
    intro s n
    have e1 : projections c1 n s ≠ [] := by simpa [projections] using h1
    have e2 : projections c2 n s ≠ [] := by simpa [projections] using h2
    unfold Separates
    rw [hp, hp, hmin _ _ e1, hmin _ _ e2, hmax _ _ e1, hmax _ _ e2, add_sub_add_right_eq_sub, add_sub_add_right_eq_sub]
  unfold overlapsWith
  simp only [lnormals_shift]
  cases (lnormals c1 ++ lnormals c2)[2]? with
  | none => rfl
  | some n2 =>
    dsimp only
    congr 1
    exact decide_eq_decide.2 (by simp only [lnormals_shift, hs])

/-- **C179.** The aligned bounding box that is not made square is shifted with the region. -/
theorem C179_aligned {hull : HullFn} (hh : ShiftHull hull) (t : Pt) {r : Region} (hc : r.corners ≠ []) (odd : Bool) :
    alignedBox hull (shiftRegion t r) false odd = (alignedBox hull r false odd).map (shiftRegion t) := by
  unfold alignedBox alignedLimits
  simp only [Bool.false_eq_true, if_false]
  rw [← mkBox_shift hh]
  simp only [shiftRegion, Option.map_some]
  rw [minX_shift t hc, maxX_shift t hc, minY_shift t hc, maxY_shift t hc, add_sub_add_right_eq_sub, add_sub_add_right_eq_sub,
    add_right_comm, add_right_comm (maxY r.corners)]

/-- **C179.** The parts of a box that is split are shifted with the box. -/
theorem C179_split {hull : HullFn} (hh : ShiftHull hull) (t : Pt) {b : Region} (hc : b.corners ≠ []) (n : Int) :
    splitBox hull (shiftRegion t b) n = (splitBox hull b n).map fun l => l.map (shiftRegion t) := by
  unfold splitBox
  by_cases hn : n ≥ 1
  · simp only [if_pos hn]
    rw [← mapM_shift _ (fun p => mkBox hull p.1.1 p.1.2 p.2.1 p.2.2 (Option.some (b.mask.map (shiftPixel t)))) _
      (fun p : (Int × Int) × (Int × Int) => ((p.1.1 + t.1, p.1.2 + t.1), (p.2.1 + t.2, p.2.2 + t.2)))]
    · simp only [shiftRegion]
      rw [minX_shift t hc, maxX_shift t hc, minY_shift t hc, maxY_shift t hc, splitAxis_shift, splitAxis_shift, List.flatMap_map,
        List.map_flatMap]
      simp only [List.map_map, Function.comp_def]
    · intro p
      exact mkBox_shift hh t p.1.1 p.1.2 p.2.1 p.2.2 (Option.some b.mask)
  · simp only [if_neg hn]
    rfl

/-- **C179 (partial).** Square bounding boxes are shifted with the region as long as its vertices stay at coordinates that are not
negative. Missing: other shifts. -/
theorem C179_square_partial {hull : HullFn} (hh : ShiftHull hull) (t : Pt) {r : Region} (hc : r.corners ≠ []) (hv : r.vertices ≠ [])
    (h : NonNeg r) (h' : NonNeg (shiftRegion t r)) (odd : Bool) :
    alignedBox hull (shiftRegion t r) true odd = (alignedBox hull r true odd).map (shiftRegion t) := by
  unfold alignedBox alignedLimits
  simp only [if_true]
  rw [centre_shift t hv h h', ← mkBox_shift hh]
  simp only [shiftRegion, Option.map_some]
  rw [minX_shift t hc, maxX_shift t hc, minY_shift t hc, maxY_shift t hc, add_sub_add_right_eq_sub, add_sub_add_right_eq_sub]
  generalize max (maxX r.corners - minX r.corners + 1) (maxY r.corners - minY r.corners + 1) = D
  generalize (centre r).1 = x
  generalize (centre r).2 = y
  have e : ∀ a u : Int, a + u + D - D / 2 - 1 - (a + u - D / 2) = a + D - D / 2 - 1 - (a - D / 2) := by intro a u; ring
  rw [e, e]
  congr 1 <;> ring

/-- **C179 (partial).** Padded boxes too. Missing: other shifts. -/
theorem C179_pad_partial {hull : HullFn} (hh : ShiftHull hull) (t : Pt) {b : Region} (hv : b.vertices ≠ []) (h : NonNeg b)
    (h' : NonNeg (shiftRegion t b)) (dnx dny : Int) :
    padBox hull (shiftRegion t b) dnx dny = (padBox hull b dnx dny).map (shiftRegion t) := by
  unfold padBox
  rw [centre_shift t hv h h']
  have e : (shiftRegion t b).npx = b.npx := rfl
  rw [e]
  by_cases hd : dnx - b.npx.1 < 0 ∨ dny - b.npx.2 < 0
  · rw [if_pos hd, if_pos hd]; rfl
  · rw [if_neg hd, if_neg hd, ← mkBox_shift hh]
    simp only [shiftRegion, Option.map_some]
    congr 1 <;> ring

private theorem boxHull_shift : ShiftHull boxHull where
  shift := by
    intro t pts
    match pts with
    | [] => rfl
    | [_] => rfl
    | [_, _] => rfl
    | [_, _, _] => rfl
    | [(xl, yl), (_, _), (xu, yu), (_, _)] =>
      simp only [List.map_cons, List.map_nil, shiftPt, boxHull, add_left_inj]
      by_cases h : xl = xu ∨ yl = yu
      · rw [if_pos h, if_pos h]; rfl
      · rw [if_neg h, if_neg h]
        simp only [Except.map, List.map_cons, List.map_nil, shiftPt, min_add_add_right, max_add_add_right]
    | _ :: _ :: _ :: _ :: _ :: _ => rfl
  some := by
    intro pts vs h
    unfold boxHull at h
    split at h
    · split at h
      · cases h
      · cases h; simp
    · cases h

/-- **C179 violated.** The two by two box at the origin is padded by a column on its left, and the same box one pixel further down and
left by a column on its right: the first result contains no shifted copy of what the second contains. The centre is rounded towards
zero. -/
theorem C179_violated {hull : HullFn} (hh : BoxHull hull) : ∃ b b' r r', mkBox hull 0 1 0 1 none = .ok b ∧
    mkBox hull (0 + -1) (1 + -1) (0 + -1) (1 + -1) none = .ok b' ∧ padBox hull b 3 3 = .ok r ∧ padBox hull b' 3 3 = .ok r' ∧
    r'.contains (toQ (2 + -1, 2 + -1)) = true ∧ r.contains (toQ (2, 2)) = false := by
  obtain ⟨b, hb, _⟩ := mkBox_ok hh (xl := 0) (xu := 1) (yl := 0) (yu := 1) (by omega) (by omega) none
  obtain ⟨b', hb', _, _, _, _, _, hv', hn', _⟩ :=
    mkBox_ok hh (xl := -1) (xu := 0) (yl := -1) (yu := 0) (by omega) (by omega) none
  obtain ⟨hv, hn⟩ : b.vertices = [(0, 0), (0, 1), (1, 1), (1, 0)] ∧ b.npx = (2, 2) := by
    obtain ⟨b2, hb2, _, _, _, _, _, h1, h2, _⟩ := mkBox_ok hh (xl := 0) (xu := 1) (yl := 0) (yu := 1) (by omega) (by omega) none
    rw [hb] at hb2
    cases hb2
    exact ⟨h1, h2⟩
  obtain ⟨r, hr, _⟩ := mkBox_ok hh (xl := -1) (xu := 1) (yl := -1) (yu := 1) (by omega) (by omega) (some b.mask)
  obtain ⟨r', hr', _⟩ := mkBox_ok hh (xl := -1) (xu := 1) (yl := -1) (yu := 1) (by omega) (by omega) (some b'.mask)
  refine ⟨b, b', r, r', hb, hb', ?_, ?_, ?_, ?_⟩
  · unfold padBox centre
    rw [hv, hn]
    exact hr
  · unfold padBox centre
    rw [hv', hn']
    exact hr'
  · rw [contains_iff_limits hh (by omega) (by omega) hr']
    decide
  · rw [contains_iff_limits hh (by omega) (by omega) hr]
    decide

/-- The hypotheses can be met: a hull function that does not depend on the origin, and a box that stays at coordinates that are not
negative when it is shifted. -/
example : ShiftHull boxHull ∧ BoxHull boxHull ∧ ∃ b, mkBox boxHull 2 5 1 3 none = .ok b ∧ b.corners ≠ [] ∧ b.vertices ≠ [] ∧ NonNeg b ∧
    NonNeg (shiftRegion (-1, 4) b) := by
  refine ⟨boxHull_shift, boxHull_spec, _, rfl, by decide, by decide, ?_, ?_⟩ <;> unfold NonNeg <;> decide

end Verif.Linalg.Geometry
