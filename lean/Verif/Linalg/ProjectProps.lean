/-
C73: extracting the data of regions from an image, and projecting it back.
-/
import Verif.Linalg.MaskProps

set_option autoImplicit false

namespace Verif.Linalg.Geometry

/-! ### Extraction -/

theorem pySlice_nonneg {n a b : Int} (ha : 0 ≤ a) (hab : a ≤ b) (hb : b ≤ n) : pySlice n a b = (a, b) := by
  unfold pySlice
  dsimp only
  rw [if_neg (by omega), if_neg (by omega), min_eq_left (by omega), min_eq_left hb, max_eq_right hab]

/-- The padded data of a region that has a pixel in the image and that passes the check. -/
theorem paddedData_ok {c : List Pt} {img : Image} {zero : Rat} (hny : 0 < img.ny) (hnx : 0 < img.nx) (hx : minX c ≤ maxX c) (hy : minY c ≤ maxY c)
    (h1 : 0 ≤ maxX c) (h2 : minX c < img.nx) (h3 : 0 ≤ maxY c) (h4 : minY c < img.ny) (h5 : minX c ≤ img.ny) (h6 : minY c ≤ img.nx) :
    ∃ p, paddedData c img zero = .ok p ∧ p.ny = maxY c - minY c + 1 ∧ p.nx = maxX c - minX c + 1 ∧
      ∀ y x, 0 ≤ y → y < p.ny → 0 ≤ x → x < p.nx → p.at' y x =
        if 0 ≤ minY c + y ∧ minY c + y < img.ny ∧ 0 ≤ minX c + x ∧ minX c + x < img.nx then img.at' (minY c + y) (minX c + x) else zero := by
  unfold paddedData
  dsimp only
  rw [if_neg (by omega)]
  generalize minX c = xl at *
  generalize maxX c = xu at *
  generalize minY c = yl at *
  generalize maxY c = yu at *
  rw [pySlice_nonneg (n := img.ny) (by omega) (by omega) (by omega), pySlice_nonneg (n := img.nx) (by omega) (by omega) (by omega)]
  by_cases hp : max 0 (0 - xl) > 0 ∨ max 0 (0 - yl) > 0 ∨ max 0 (xu - img.nx + 1) > 0 ∨ max 0 (yu - img.ny + 1) > 0
  · rw [if_pos hp, pySlice_nonneg (n := yu - yl + 1) (by omega) (by omega) (by omega),
      pySlice_nonneg (n := xu - xl + 1) (by omega) (by omega) (by omega)]
    dsimp only
    have hb1 : bcastOk (yu - max 0 (yu - img.ny + 1) + 1 - (yl + max 0 (0 - yl))) (-yl + yu + 1 - max 0 (yu - img.ny + 1) - max 0 (0 - yl)) = true := by
      unfold bcastOk
      rw [decide_eq_true_iff]
      left; ring
    have hb2 : bcastOk (xu - max 0 (xu - img.nx + 1) + 1 - (xl + max 0 (0 - xl))) (-xl + xu + 1 - max 0 (xu - img.nx + 1) - max 0 (0 - xl)) = true := by
      unfold bcastOk
      rw [decide_eq_true_iff]
      left; ring
    rw [hb1, hb2]
    refine ⟨_, rfl, rfl, rfl, ?_⟩
    intro y x hy0 hy1 hx0 hx1
    dsimp only at hy1 hx1 ⊢
    by_cases hin : 0 ≤ yl + y ∧ yl + y < img.ny ∧ 0 ≤ xl + x ∧ xl + x < img.nx
    · rw [if_pos hin, if_pos (by omega)]
      unfold bcast
      congr 1
      · split <;> omega
      · split <;> omega
    · rw [if_neg hin, if_neg (by omega)]
  · rw [if_neg hp]
    refine ⟨_, rfl, by dsimp only; omega, by dsimp only; omega, ?_⟩
    intro y x hy0 hy1 hx0 hx1
    dsimp only at hy1 hx1 ⊢
    rw [if_pos (by omega)]
    congr 1 <;> omega

/-- **C73 (partial).** `regional_data` of a region that has a pixel in the image: the result has the size of the region's bounding box
and its pixel `(y, x)` is the image's pixel at `(minY + y, minX + x)`, or the padding value where there is none, multiplied with the
weight of the mask, or with `oob` where the weight is zero; the window is the bounding box.
Missing: images that are not square. The lower limits must not exceed the extent of the *other* axis, see `C73_violated`. -/
theorem C73_extract_partial (r : Region) (img : Image) (hny : 0 < img.ny) (hnx : 0 < img.nx) (oob zero : Rat) (hx : minX r.corners < maxX r.corners)
    (hy : minY r.corners < maxY r.corners) (h1 : 0 ≤ maxX r.corners) (h2 : minX r.corners < img.nx) (h3 : 0 ≤ maxY r.corners)
    (h4 : minY r.corners < img.ny) (hsq : img.ny = img.nx ∨ (minX r.corners ≤ img.ny ∧ minY r.corners ≤ img.nx)) :
    ∃ d, regionalData r img oob zero = .ok (d, (minX r.corners, maxX r.corners, minY r.corners, maxY r.corners)) ∧
      d.ny = maxY r.corners - minY r.corners + 1 ∧ d.nx = maxX r.corners - minX r.corners + 1 ∧
      ∀ y x : Int, minY r.corners ≤ y → y ≤ maxY r.corners → minX r.corners ≤ x → x ≤ maxX r.corners →
        d.at' (y - minY r.corners) (x - minX r.corners) = (if 0 ≤ y ∧ y < img.ny ∧ 0 ≤ x ∧ x < img.nx then img.at' y x else zero) *
          (if weightOf r.mask r.weights (y, x) = 0 then oob else weightOf r.mask r.weights (y, x)) := by
  obtain ⟨p, hp, hpy, hpx, hpv⟩ := paddedData_ok (c := r.corners) (img := img) (zero := zero) hny hnx hx.le hy.le h1 h2 h3 h4
    (by omega) (by omega)
  unfold regionalData
  rw [hp]
  dsimp only
  rw [if_pos ⟨Or.inl hpy, Or.inl hpx⟩]
  refine ⟨_, rfl, hpy, hpx, ?_⟩
  intro y x a1 a2 a3 a4
  dsimp only
  have hb1 : bcast (maxY r.corners - minY r.corners + 1) (y - minY r.corners) = y - minY r.corners := if_neg (by omega)
  have hb2 : bcast (maxX r.corners - minX r.corners + 1) (x - minX r.corners) = x - minX r.corners := if_neg (by omega)
  have hf : filledMask r (y - minY r.corners) (x - minX r.corners) = weightOf r.mask r.weights
      (minY r.corners + (y - minY r.corners), minX r.corners + (x - minX r.corners)) := if_pos (by omega)
  rw [hpv _ _ (by omega) (by omega) (by omega) (by omega), hb1, hb2, hf]
  rw [show minY r.corners + (y - minY r.corners) = y by ring, show minX r.corners + (x - minX r.corners) = x by ring]

/-- **C73 violated.** The box `[5, 6] × [0, 1]` is inside an image with two rows and ten columns, but its data cannot be extracted: the
lower limits are compared with the extent of the wrong axis. -/
theorem C73_violated {hull : HullFn} (hh : BoxHull hull) (img : Image) (h1 : img.ny = 2) (_h2 : img.nx = 10) (oob zero : Rat) :
    ∃ r, mkBox hull 5 6 0 1 none = .ok r ∧ regionalData r img oob zero = .error .valueError := by
  obtain ⟨r, hr, _, e1, e2, e3, e4, _⟩ := mkBox_ok hh (xl := 5) (xu := 6) (yl := 0) (yu := 1) (by decide) (by decide) none
  refine ⟨r, hr, ?_⟩
  unfold regionalData paddedData
  dsimp only
  rw [if_pos]
  rw [e1, h1]
  left
  decide

/-! ### Projection -/

/-- What a region adds to the pixel `(y, x)`. -/
def contribution (f : Image) (r : Region) (y x : Int) : Rat :=
  if minX r.corners ≤ x ∧ x ≤ maxX r.corners ∧ minY r.corners ≤ y ∧ y ≤ maxY r.corners then
    f.at' (y - minY r.corners) (x - minX r.corners) else 0

theorem projectLoop_ok {minx miny npxx npxy : Int} : ∀ (l : List (Image × Region)) (acc : Int → Int → Rat),
    (∀ q ∈ l, minX q.2.corners ≤ maxX q.2.corners ∧ minY q.2.corners ≤ maxY q.2.corners ∧ minx ≤ minX q.2.corners ∧
      maxX q.2.corners + 1 ≤ minx + npxx ∧ miny ≤ minY q.2.corners ∧ maxY q.2.corners + 1 ≤ miny + npxy ∧
      q.1.ny = maxY q.2.corners - minY q.2.corners + 1 ∧ q.1.nx = maxX q.2.corners - minX q.2.corners + 1) →
    ∃ res, projectLoop minx miny npxx npxy acc l = .ok res ∧
      ∀ y x, res (y - miny) (x - minx) = acc (y - miny) (x - minx) + (l.map fun q => contribution q.1 q.2 y x).sum := by
  intro l
  induction l with
  | nil => intro acc _; exact ⟨acc, rfl, fun y x => by simp⟩
  | cons q l ih =>
    intro acc h
    obtain ⟨f, r⟩ := q
    obtain ⟨a1, a2, a3, a4, a5, a6, a7, a8⟩ := h (f, r) (by simp)
    dsimp only at a1 a2 a3 a4 a5 a6 a7 a8
    rw [projectLoop]
    unfold projectStep
    dsimp only
    rw [if_neg (by omega)]
    dsimp only
    obtain ⟨res, hr, hv⟩ := ih (fun y x => if max 0 (-miny + minY r.corners) ≤ y ∧ y < min (-miny + maxY r.corners + 1) npxy ∧
      max 0 (-minx + minX r.corners) ≤ x ∧ x < min (-minx + maxX r.corners + 1) npxx then
        acc y x + f.at' (y - max 0 (-miny + minY r.corners)) (x - max 0 (-minx + minX r.corners)) else acc y x)
      (fun q hq => h q (List.mem_cons_of_mem _ hq))
    refine ⟨res, hr, ?_⟩
    intro y x
    rw [hv, List.map_cons, List.sum_cons, ← add_assoc]
    congr 1
    dsimp only
    unfold contribution
    by_cases hin : minX r.corners ≤ x ∧ x ≤ maxX r.corners ∧ minY r.corners ≤ y ∧ y ≤ maxY r.corners
    · rw [if_pos (by omega), if_pos hin]
      congr 2 <;> omega
    · rw [if_neg (by omega), if_neg hin, add_zero]

/-- **C73.** Projecting the data of boxes, each of the size of its box, gives an image of the common bounding box of all boxes whose
pixel `(y, x)` is the sum of the boxes' data at that pixel; the returned box is that bounding box. -/
theorem C73_project {hull : HullFn} (hh : BoxHull hull) (l : List (Image × Region)) (hne : l ≠ [])
    (h : ∀ q ∈ l, minX q.2.corners < maxX q.2.corners ∧ minY q.2.corners < maxY q.2.corners ∧
      q.1.ny = maxY q.2.corners - minY q.2.corners + 1 ∧ q.1.nx = maxX q.2.corners - minX q.2.corners + 1) :
    ∃ img b minx maxx miny maxy, projectRegions hull (l.map Prod.fst) (l.map Prod.snd) = .ok (img, b) ∧
      (∃ q ∈ l, minX q.2.corners = minx) ∧ (∃ q ∈ l, maxX q.2.corners = maxx) ∧
      (∃ q ∈ l, minY q.2.corners = miny) ∧ (∃ q ∈ l, maxY q.2.corners = maxy) ∧
      (∀ q ∈ l, minx ≤ minX q.2.corners ∧ maxX q.2.corners ≤ maxx ∧ miny ≤ minY q.2.corners ∧ maxY q.2.corners ≤ maxy) ∧
      img.ny = maxy - miny + 1 ∧ img.nx = maxx - minx + 1 ∧
      (∀ y x, img.at' (y - miny) (x - minx) = (l.map fun q => contribution q.1 q.2 y x).sum) ∧
      (∀ x y : Int, b.contains (toQ (x, y)) = true ↔ minx ≤ x ∧ x ≤ maxx ∧ miny ≤ y ∧ y ≤ maxy) := by
  have hr : ∀ g : Region → Int, (l.map Prod.snd).map g = l.map fun q => g q.2 := by intro g; rw [List.map_map]; rfl
  have hmin : ∀ g : Region → Int, (∃ q ∈ l, g q.2 = listMin ((l.map Prod.snd).map g)) ∧ ∀ q ∈ l, listMin ((l.map Prod.snd).map g) ≤ g q.2 := by
    intro g
    rw [hr]
    obtain ⟨a, b⟩ := listMin_spec (l := l.map fun q => g q.2) (by simpa using hne)
    obtain ⟨q, hq, he⟩ := List.mem_map.mp a
    exact ⟨⟨q, hq, he⟩, fun q hq => b _ (List.mem_map.mpr ⟨q, hq, rfl⟩)⟩
  have hmax : ∀ g : Region → Int, (∃ q ∈ l, g q.2 = listMax ((l.map Prod.snd).map g)) ∧ ∀ q ∈ l, g q.2 ≤ listMax ((l.map Prod.snd).map g) := by
    intro g
    rw [hr]
    obtain ⟨a, b⟩ := listMax_spec (l := l.map fun q => g q.2) (by simpa using hne)
    obtain ⟨q, hq, he⟩ := List.mem_map.mp a
    exact ⟨⟨q, hq, he⟩, fun q hq => b _ (List.mem_map.mpr ⟨q, hq, rfl⟩)⟩
  obtain ⟨a1, b1⟩ := hmin fun r => minX r.corners
  obtain ⟨a2, b2⟩ := hmax fun r => maxX r.corners
  obtain ⟨a3, b3⟩ := hmin fun r => minY r.corners
  obtain ⟨a4, b4⟩ := hmax fun r => maxY r.corners
  unfold projectRegions
  rw [if_neg (by simp)]
  dsimp only
  generalize listMin ((l.map Prod.snd).map fun r => minX r.corners) = minx at *
  generalize listMax ((l.map Prod.snd).map fun r => maxX r.corners) = maxx at *
  generalize listMin ((l.map Prod.snd).map fun r => minY r.corners) = miny at *
  generalize listMax ((l.map Prod.snd).map fun r => maxY r.corners) = maxy at *
  have hzip : (l.map Prod.fst).zip (l.map Prod.snd) = l := (List.zip_of_prod rfl rfl).symm
  rw [hzip]
  obtain ⟨res, hres, hv⟩ := projectLoop_ok (minx := minx) (miny := miny) (npxx := maxx - minx + 1) (npxy := maxy - miny + 1) l
    (fun _ _ => 0) (by
      intro q hq
      have := h q hq
      have := b1 q hq
      have := b2 q hq
      have := b3 q hq
      have := b4 q hq
      omega)
  rw [hres]
  dsimp only
  obtain ⟨q, hq⟩ := List.exists_mem_of_ne_nil _ hne
  have hlx : minx < maxx := by have := h q hq; have := b1 q hq; have := b2 q hq; omega
  have hly : miny < maxy := by have := h q hq; have := b3 q hq; have := b4 q hq; omega
  obtain ⟨b, hb, hc⟩ := C67_box hh minx maxx miny maxy hlx hly (some ((l.map Prod.snd).flatMap Region.mask))
  rw [hb]
  refine ⟨_, b, minx, maxx, miny, maxy, rfl, a1, a2, a3, a4, fun q hq => ⟨b1 q hq, b2 q hq, b3 q hq, b4 q hq⟩, rfl, rfl, ?_, hc⟩
  intro y x
  dsimp only
  rw [hv, zero_add]

/-- **C73.** Data that do not have the size of their box are rejected, as are lists of different lengths. -/
theorem C73_reject {hull : HullFn} (f : Image) (r : Region)
    (hf : f.ny ≠ maxY r.corners - minY r.corners + 1 ∨ f.nx ≠ maxX r.corners - minX r.corners + 1) :
    projectRegions hull [f] [r] = .error .valueError ∧ projectRegions hull [f] [] = .error .typeError := by
  constructor
  · unfold projectRegions
    rw [if_neg (by simp)]
    have a1 : ∀ a : Int, listMin [a] = a := fun _ => rfl
    have a2 : ∀ a : Int, listMax [a] = a := fun _ => rfl
    simp only [List.map_cons, List.map_nil, List.zip_cons_cons, List.zip_nil_left, a1, a2]
    rw [projectLoop]
    unfold projectStep
    dsimp only
    rw [if_pos (by omega)]
  · unfold projectRegions
    rw [if_pos (by simp)]

/-- **C73 (partial).** If boxes inside a square image have masks whose weights sum to one at every pixel of the image, as
`normalize_masks` makes them, extracting the data of all boxes and projecting them back gives the image.
Missing: images that are not square, see `C73_violated`. -/
theorem C73_roundtrip_partial {hull : HullFn} (hh : BoxHull hull) (img : Image) (hsq : img.ny = img.nx) (regions : List Region)
    (hne : regions ≠ []) (hbox : ∀ r ∈ regions, minX r.corners < maxX r.corners ∧ minY r.corners < maxY r.corners ∧
      0 ≤ minX r.corners ∧ maxX r.corners < img.nx ∧ 0 ≤ minY r.corners ∧ maxY r.corners < img.ny)
    (hmask : ∀ r ∈ regions, ∀ p ∈ r.mask, minX r.corners ≤ p.2 ∧ p.2 ≤ maxX r.corners ∧ minY r.corners ≤ p.1 ∧ p.1 ≤ maxY r.corners)
    (hone : ∀ y x : Int, 0 ≤ y → y < img.ny → 0 ≤ x → x < img.nx → (regions.map fun r => weightOf r.mask r.weights (y, x)).sum = 1) :
    ∃ data out b, regions.mapM (fun r => (regionalData r img 0 0).map Prod.fst) = .ok data ∧
      projectRegions hull data regions = .ok (out, b) ∧ out.ny = img.ny ∧ out.nx = img.nx ∧
      ∀ y x : Int, 0 ≤ y → y < img.ny → 0 ≤ x → x < img.nx → out.at' y x = img.at' y x := by
  -- the extracted data
  have hdata : ∀ rs : List Region, (∀ r ∈ rs, r ∈ regions) → ∃ l : List (Image × Region), l.map Prod.snd = rs ∧
      rs.mapM (fun r => (regionalData r img 0 0).map Prod.fst) = .ok (l.map Prod.fst) ∧
      ∀ q ∈ l, q.2 ∈ regions ∧ q.1.ny = maxY q.2.corners - minY q.2.corners + 1 ∧ q.1.nx = maxX q.2.corners - minX q.2.corners + 1 ∧
        ∀ y x : Int, minY q.2.corners ≤ y → y ≤ maxY q.2.corners → minX q.2.corners ≤ x → x ≤ maxX q.2.corners →
          q.1.at' (y - minY q.2.corners) (x - minX q.2.corners) = img.at' y x * weightOf q.2.mask q.2.weights (y, x) := by
    intro rs
    induction rs with
    | nil => intro _; exact ⟨[], rfl, rfl, by simp⟩
    | cons r rs ih =>
      intro h
      obtain ⟨l, e1, e2, e3⟩ := ih fun s hs => h s (List.mem_cons_of_mem _ hs)
      have hr := h r (by simp)
      have hb := hbox r hr
      obtain ⟨d, d1, d2, d3, d4⟩ := C73_extract_partial r img (by omega) (by omega) 0 0 hb.1 hb.2.1 (by omega) (by omega) (by omega) (by omega) (Or.inl hsq)
      refine ⟨(d, r) :: l, by simp [e1], ?_, ?_⟩
      · rw [List.mapM_cons, d1, e2]; rfl
      · intro q hq
        rcases List.mem_cons.mp hq with rfl | hq
        · refine ⟨hr, d2, d3, ?_⟩
          intro y x a1 a2 a3 a4
          dsimp only at a1 a2 a3 a4 ⊢
          rw [d4 y x a1 a2 a3 a4, if_pos (by omega)]
          congr 1
          split
          · rename_i h0; exact h0.symm
          · rfl
        · exact e3 q hq
  obtain ⟨l, e1, e2, e3⟩ := hdata regions fun _ h => h
  have hlne : l ≠ [] := by
    rintro rfl
    exact hne e1.symm
  obtain ⟨out, b, minx, maxx, miny, maxy, hp, ⟨q1, hq1, f1⟩, ⟨q2, hq2, f2⟩, ⟨q3, hq3, f3⟩, ⟨q4, hq4, f4⟩, hall, s1, s2, hv, _⟩ :=
    C73_project hh l hlne (by
      intro q hq
      have := e3 q hq
      have := hbox q.2 this.1
      exact ⟨this.1, this.2.1, (e3 q hq).2.1, (e3 q hq).2.2.1⟩)
  -- some region contains each corner of the image
  have hcov : ∀ y x : Int, 0 ≤ y → y < img.ny → 0 ≤ x → x < img.nx → ∃ q ∈ l, minX q.2.corners ≤ x ∧ x ≤ maxX q.2.corners ∧
      minY q.2.corners ≤ y ∧ y ≤ maxY q.2.corners := by
    intro y x a1 a2 a3 a4
    by_contra hc
    have h0 : (regions.map fun r => weightOf r.mask r.weights (y, x)).sum = 0 := by
      rw [← e1, List.map_map]
      apply List.sum_eq_zero
      intro w hw
      obtain ⟨q, hq, rfl⟩ := List.mem_map.mp hw
      apply weightOf_not_mem
      intro hm
      exact hc ⟨q, hq, hmask q.2 (e3 q hq).1 _ hm⟩
    rw [hone y x a1 a2 a3 a4] at h0
    exact one_ne_zero h0
  have hb1 := hbox q1.2 (e3 q1 hq1).1
  obtain ⟨c1, hc1, g1⟩ := hcov 0 0 le_rfl (by omega) le_rfl (by omega)
  obtain ⟨c2, hc2, g2⟩ := hcov (img.ny - 1) (img.nx - 1) (by omega) (by omega) (by omega) (by omega)
  have hb2 := hbox q2.2 (e3 q2 hq2).1
  have hb3 := hbox q3.2 (e3 q3 hq3).1
  have hb4 := hbox q4.2 (e3 q4 hq4).1
  have k1 := hall c1 hc1
  have k2 := hall c2 hc2
  have z1 : minx = 0 := by omega
  have z2 : maxx = img.nx - 1 := by omega
  have z3 : miny = 0 := by omega
  have z4 : maxy = img.ny - 1 := by omega
  refine ⟨l.map Prod.fst, out, b, e2, by rw [← e1]; exact hp, by omega, by omega, ?_⟩
  intro y x a1 a2 a3 a4
  have := hv y x
  rw [z1, z3, sub_zero, sub_zero] at this
  rw [this]
  have hsum : ∀ m : List (Image × Region), (∀ q ∈ m, q ∈ l) → (m.map fun q => contribution q.1 q.2 y x).sum =
      img.at' y x * (m.map fun q => weightOf q.2.mask q.2.weights (y, x)).sum := by
    intro m hm
    induction m with
    | nil => simp
    | cons q m ih =>
      rw [List.map_cons, List.sum_cons, List.map_cons, List.sum_cons, ih fun p hp => hm p (List.mem_cons_of_mem _ hp), mul_add]
      congr 1
      have hq := e3 q (hm q (by simp))
      unfold contribution
      by_cases hin : minX q.2.corners ≤ x ∧ x ≤ maxX q.2.corners ∧ minY q.2.corners ≤ y ∧ y ≤ maxY q.2.corners
      · rw [if_pos hin]
        exact hq.2.2.2 y x hin.2.2.1 hin.2.2.2 hin.1 hin.2.1
      · rw [if_neg hin, weightOf_not_mem _ (fun hmem => hin (hmask q.2 hq.1 _ hmem)), mul_zero]
  have hw := hone y x a1 a2 a3 a4
  rw [← e1, List.map_map] at hw
  have hw' : (l.map fun q => weightOf q.2.mask q.2.weights (y, x)).sum = 1 := hw
  rw [hsum l fun _ h => h, hw', mul_one]

/-- The hypotheses can be met: two overlapping boxes in an image of three by three pixels, after `normalize_masks`. -/
example : ∃ a b rs, mkBox boxHull 0 1 0 2 none = .ok a ∧ mkBox boxHull 1 2 0 2 none = .ok b ∧ normalizeMasks [a, b] true = .ok rs ∧
    (∀ r ∈ rs, minX r.corners < maxX r.corners ∧ minY r.corners < maxY r.corners ∧
      0 ≤ minX r.corners ∧ maxX r.corners < 3 ∧ 0 ≤ minY r.corners ∧ maxY r.corners < 3) ∧
    (∀ r ∈ rs, ∀ p ∈ r.mask, minX r.corners ≤ p.2 ∧ p.2 ≤ maxX r.corners ∧ minY r.corners ≤ p.1 ∧ p.1 ≤ maxY r.corners) ∧
    (∀ y ∈ [0, 1, 2], ∀ x ∈ [0, 1, 2], (rs.map fun r => weightOf r.mask r.weights (y, x)).sum = 1) := by
  refine ⟨_, _, _, rfl, rfl, rfl, ?_, ?_, ?_⟩ <;> decide +kernel

/-- **C73.** The value for pixels out of the image is not used unless it is not a number: they are set to zero times that value, so
that the padding of an image with `oob_value = 1` is zero, not one. -/
theorem C73_oob_ignored {hull : HullFn} (hh : BoxHull hull) : ∃ r d w, mkBox hull (-1) 1 0 1 none = .ok r ∧
    regionalData r ⟨2, 2, fun _ _ => 1⟩ 1 (0 * 1) = .ok (d, w) ∧ d.at' 0 0 = 0 := by
  obtain ⟨r, hr, hib, e1, e2, e3, e4, _⟩ := mkBox_ok hh (xl := -1) (xu := 1) (yl := 0) (yu := 1) (by decide) (by decide) none
  have f1 : minX r.corners = -1 := e1
  have f2 : maxX r.corners = 1 := e2
  have f3 : minY r.corners = 0 := e3
  have f4 : maxY r.corners = 1 := e4
  obtain ⟨d, h1, _, _, h2⟩ := C73_extract_partial r ⟨2, 2, fun _ _ => 1⟩ (by decide) (by decide) 1 (0 * 1) (by omega) (by omega) (by omega) (by rw [f1]; decide)
    (by omega) (by rw [f3]; decide) (Or.inl rfl)
  refine ⟨r, d, _, hr, h1, ?_⟩
  have := h2 0 (-1) (by omega) (by omega) (by omega) (by omega)
  rw [f1, f3] at this
  have h3 : d.at' 0 0 = _ := this
  rw [h3, if_neg (by decide)]
  simp

end Verif.Linalg.Geometry
