/-
C71: normalising the masks of overlapping regions.
-/
import Verif.Linalg.BoxProps
import Mathlib.Algebra.BigOperators.Group.List.Basic

set_option autoImplicit false

namespace Verif.Linalg.Geometry

/-! ### Weights of single pixels -/

theorem lookup_zip_reverse {m : List (Int × Int)} (hnd : m.Nodup) {w : List Rat} (hl : w.length = m.length) {i : Nat}
    (hi : i < m.length) : (m.zip w).reverse.lookup m[i] = some (w[i]'(by omega)) := by
  induction m generalizing w i with
  | nil => simp at hi
  | cons a m ih =>
    cases w with
    | nil => simp at hl
    | cons b w =>
      rw [List.zip_cons_cons, List.reverse_cons]
      have hl' : w.length = m.length := by simpa using hl
      rw [List.nodup_cons] at hnd
      rw [List.lookup_append]
      cases i with
      | zero =>
        have : (m.zip w).reverse.lookup a = none := by
          rw [List.lookup_eq_none_iff]
          rintro ⟨k, v⟩ hp
          rw [List.mem_reverse] at hp
          have := List.of_mem_zip hp
          rw [bne_iff_ne]
          intro h
          simp only at h
          exact hnd.1 (h ▸ this.1)
        simp [this, List.lookup]
      | succ i =>
        have := ih hnd.2 hl' (i := i) (by simpa using hi)
        simp only [List.getElem_cons_succ]
        rw [this]
        rfl

theorem weightOf_get {m : List (Int × Int)} (hnd : m.Nodup) {w : List Rat} (hl : w.length = m.length) {i : Nat}
    (hi : i < m.length) : weightOf m w m[i] = w[i]'(by omega) := by
  unfold weightOf
  rw [lookup_zip_reverse hnd hl hi]
  rfl

theorem weightOf_not_mem {m : List (Int × Int)} (w : List Rat) {p : Int × Int} (hp : p ∉ m) : weightOf m w p = 0 := by
  unfold weightOf
  have : (m.zip w).reverse.lookup p = none := by
    rw [List.lookup_eq_none_iff]
    rintro ⟨k, v⟩ hk
    rw [List.mem_reverse] at hk
    have := List.of_mem_zip hk
    rw [bne_iff_ne]
    rintro rfl
    exact hp this.1
  rw [this]
  rfl

theorem setWeight_length (isBox : Bool) {m : List (Int × Int)} {w : List Rat} (hl : w.length = m.length) (px : Int × Int) (v : Rat) :
    (setWeight isBox m w px v).length = m.length := by
  unfold setWeight
  cases isBox
  · simp [hl]
  · simp [hl]

theorem setWeight_get (isBox : Bool) {m : List (Int × Int)} (hnd : m.Nodup) {w : List Rat} (hl : w.length = m.length)
    {px : Int × Int} (hpx : px ∈ m) (v : Rat) {i : Nat} (hi : i < m.length) :
    (setWeight isBox m w px v)[i]'(by rw [setWeight_length isBox hl]; exact hi) = if m[i] = px then v else w[i]'(by omega) := by
  cases isBox
  · simp only [setWeight, Bool.false_eq_true, if_false]
    rw [List.getElem_set]
    by_cases h : m[i] = px
    · rw [if_pos h, if_pos]
      rw [← h]
      exact hnd.idxOf_getElem i hi
    · rw [if_neg h, if_neg]
      intro he
      apply h
      have hlt : m.idxOf px < m.length := List.idxOf_lt_length_of_mem hpx
      have := List.getElem_idxOf hlt
      rw [← this]
      congr 1
      exact he.symm
  · simp [setWeight]

theorem fold_length (isBox : Bool) {m : List (Int × Int)} (L : List (Rat × (Int × Int))) : ∀ {w : List Rat}, w.length = m.length →
    (L.foldl (fun w x => setWeight isBox m w x.2 x.1) w).length = m.length := by
  induction L with
  | nil => intro w hl; exact hl
  | cons x L ih => intro w hl; exact ih (setWeight_length isBox hl x.2 x.1)

/-- The weight of a pixel that is in the list of counts is its value there. -/
theorem fold_get_not_mem (isBox : Bool) {m : List (Int × Int)} (hnd : m.Nodup) (L : List (Rat × (Int × Int))) :
    ∀ {w : List Rat} (hl : w.length = m.length) (_ : ∀ x ∈ L, x.2 ∈ m) {i : Nat} (hi : i < m.length) (_ : ∀ x ∈ L, x.2 ≠ m[i]),
    (L.foldl (fun w x => setWeight isBox m w x.2 x.1) w)[i]'(by rw [fold_length isBox L hl]; exact hi) = w[i]'(by omega) := by
  induction L with
  | nil => intro w hl _ i hi _; rfl
  | cons x L ih =>
    intro w hl hm i hi hne
    simp only [List.foldl_cons]
    rw [ih (setWeight_length isBox hl x.2 x.1) (fun y hy => hm y (List.mem_cons_of_mem _ hy)) hi
      (fun y hy => hne y (List.mem_cons_of_mem _ hy)), setWeight_get isBox hnd hl (hm x (by simp)) x.1 hi,
      if_neg (fun h => hne x (by simp) h.symm)]

theorem fold_get_mem (isBox : Bool) {m : List (Int × Int)} (hnd : m.Nodup) (L : List (Rat × (Int × Int))) :
    ∀ {w : List Rat} (hl : w.length = m.length) (_ : ∀ x ∈ L, x.2 ∈ m) {i : Nat} (hi : i < m.length) (v : Rat)
    (_ : ∀ x ∈ L, x.2 = m[i] → x.1 = v) (_ : ∃ x ∈ L, x.2 = m[i]),
    (L.foldl (fun w x => setWeight isBox m w x.2 x.1) w)[i]'(by rw [fold_length isBox L hl]; exact hi) = v := by
  induction L with
  | nil => rintro w hl _ i hi v _ ⟨x, hx, _⟩; simp at hx
  | cons x L ih =>
    intro w hl hm i hi v hv hex
    simp only [List.foldl_cons]
    by_cases h : ∃ y ∈ L, y.2 = m[i]
    · exact ih (setWeight_length isBox hl x.2 x.1) (fun y hy => hm y (List.mem_cons_of_mem _ hy)) hi v
        (fun y hy => hv y (List.mem_cons_of_mem _ hy)) h
    · have hx : x.2 = m[i] := by
        obtain ⟨y, hy, he⟩ := hex
        rcases List.mem_cons.mp hy with rfl | hy
        · exact he
        · exact absurd ⟨y, hy, he⟩ h
      rw [fold_get_not_mem isBox hnd L (setWeight_length isBox hl x.2 x.1) (fun y hy => hm y (List.mem_cons_of_mem _ hy)) hi
        (fun y hy he => h ⟨y, hy, he⟩), setWeight_get isBox hnd hl (hm x (by simp)) x.1 hi, if_pos hx.symm]
      exact hv x (by simp) hx

/-! ### Flat pixel numbers -/

theorem unflatten_flatten {nx : Int} {p : Int × Int} (h0 : 0 ≤ p.2) (h1 : p.2 < nx) : unflatten nx (flatten nx p) = p := by
  unfold unflatten flatten
  rw [if_neg (by omega)]
  have hpos : 0 < nx := by omega
  have e1 : Int.fdiv (p.1 * nx + p.2) nx = p.1 := by
    rw [Int.fdiv_eq_ediv_of_nonneg _ hpos.le, add_comm, Int.add_mul_ediv_right _ _ hpos.ne', Int.ediv_eq_zero_of_lt h0 h1]
    simp
  have e2 : Int.fmod (p.1 * nx + p.2) nx = p.2 := by
    rw [Int.fmod_eq_emod_of_nonneg _ hpos.le, add_comm, Int.add_mul_emod_self_right, Int.emod_eq_of_lt h0 h1]
  rw [e1, e2]

theorem count_flat {nx : Int} (all : List (Int × Int)) (h : ∀ p ∈ all, 0 ≤ p.2 ∧ p.2 < nx) {p : Int × Int}
    (hp : 0 ≤ p.2 ∧ p.2 < nx) : (all.map (flatten nx)).count (flatten nx p) = all.count p := by
  unfold List.count
  rw [List.countP_map]
  apply List.countP_congr
  intro q hq
  have := h q hq
  simp only [Function.comp_apply, beq_iff_eq]
  constructor
  · intro he
    rw [← unflatten_flatten this.1 this.2, ← unflatten_flatten hp.1 hp.2, he]
  · rintro rfl; rfl

/-- The number of regions whose mask contains a pixel. -/
def painted (regions : List Region) (p : Int × Int) : Nat := regions.countP fun r => decide (p ∈ r.mask)

theorem count_all (regions : List Region) (h : ∀ r ∈ regions, r.mask.Nodup) (p : Int × Int) :
    (regions.flatMap Region.mask).count p = painted regions p := by
  unfold painted
  induction regions with
  | nil => rfl
  | cons r regions ih =>
    rw [List.flatMap_cons, List.count_append, List.countP_cons, ih fun s hs => h s (List.mem_cons_of_mem _ hs)]
    have : r.mask.count p = if decide (p ∈ r.mask) = true then 1 else 0 := by
      rw [(h r (by simp)).count]
      simp
    omega

theorem mem_paintCounts {all : List (Int × Int)} (h : ∀ p ∈ all, 0 ≤ p.2) {only : Bool} {x : Rat × (Int × Int)} :
    x ∈ paintCounts all only ↔ x.2 ∈ all ∧ x.1 = 1 / (all.count x.2 : Rat) ∧ (only = true → 1 < all.count x.2) := by
  have hb : ∀ p ∈ all, 0 ≤ p.2 ∧ p.2 < listMax (all.map Prod.snd) + 1 := by
    intro p hp
    have := (listMax_spec (l := all.map Prod.snd) (by simpa using List.ne_nil_of_mem hp)).2 p.2 (List.mem_map_of_mem hp)
    exact ⟨h p hp, by omega⟩
  unfold paintCounts
  dsimp only
  generalize listMax (all.map Prod.snd) + 1 = nx at *
  rw [List.mem_map]
  constructor
  · rintro ⟨f, hf, rfl⟩
    rw [List.mem_filter, List.mem_dedup, List.mem_map] at hf
    obtain ⟨⟨p, hp, rfl⟩, ho⟩ := hf
    have := hb p hp
    rw [count_flat all hb this] at ho ⊢
    dsimp only
    rw [unflatten_flatten this.1 this.2]
    refine ⟨hp, rfl, ?_⟩
    intro he
    rw [he] at ho
    simpa using ho
  · rintro ⟨h1, h2, h3⟩
    have := hb x.2 h1
    refine ⟨flatten nx x.2, ?_, ?_⟩
    · rw [List.mem_filter, List.mem_dedup]
      refine ⟨List.mem_map_of_mem h1, ?_⟩
      rw [count_flat all hb this]
      cases only
      · rfl
      · simpa using h3 rfl
    · rw [count_flat all hb this, unflatten_flatten this.1 this.2, ← h2]

/-- The weights of a region afterwards. -/
theorem updated_weight {all : List (Int × Int)} (h : ∀ p ∈ all, 0 ≤ p.2) (only : Bool) {r : Region} (hsub : ∀ p ∈ r.mask, p ∈ all)
    (hnd : r.mask.Nodup) (hl : r.weights.length = r.mask.length) (hw : only = true → ∀ w ∈ r.weights, w = 1)
    {p : Int × Int} (hp : p ∈ r.mask) :
    weightOf (updateRegion (paintCounts all only) r).mask (updateRegion (paintCounts all only) r).weights p = 1 / (all.count p : Rat) := by
  obtain ⟨i, hi, rfl⟩ := List.getElem_of_mem hp
  have hfl := fold_length r.isBox (m := r.mask) ((paintCounts all only).filter fun x => decide (x.2 ∈ r.mask)) hl
  unfold updateRegion
  dsimp only
  rw [weightOf_get hnd hfl hi]
  have hm : ∀ x ∈ (paintCounts all only).filter (fun x => decide (x.2 ∈ r.mask)), x.2 ∈ r.mask := by
    intro x hx
    exact of_decide_eq_true (List.mem_filter.mp hx).2
  have hcpos : 0 < all.count r.mask[i] := List.count_pos_iff.mpr (hsub _ hp)
  by_cases hc : only = true → 1 < all.count r.mask[i]
  · apply fold_get_mem r.isBox hnd _ hl hm hi
    · intro x hx he
      have := (mem_paintCounts h).mp (List.mem_filter.mp hx).1
      rw [this.2.1, he]
    · refine ⟨(1 / (all.count r.mask[i] : Rat), r.mask[i]), ?_, rfl⟩
      rw [List.mem_filter]
      exact ⟨(mem_paintCounts h).mpr ⟨hsub _ hp, rfl, hc⟩, by simp⟩
  · have hone : only = true ∧ ¬ 1 < all.count r.mask[i] := by
      by_contra hcon
      apply hc
      intro ho
      by_contra hlt
      exact hcon ⟨ho, hlt⟩
    rw [fold_get_not_mem r.isBox hnd _ hl hm hi]
    · rw [hw hone.1 _ (List.getElem_mem (by omega)), show all.count r.mask[i] = 1 by omega]
      norm_num
    · intro x hx he
      have := (mem_paintCounts h).mp (List.mem_filter.mp hx).1
      rw [he] at this
      exact hone.2 (this.2.2 hone.1)

/-- **C71 (partial).** For regions whose masks have no negative `x` and no pixel twice, all regions that cover a pixel have the same
weight there, one divided by their number, so that the weights of a covered pixel sum to one; no mask is changed. If only overlaps
are normalised, the weights must have been one.
Missing: masks with pixels left of the origin, see `C71_violated`. -/
theorem C71_partition_partial (regions : List Region) (only : Bool) (hnd : ∀ r ∈ regions, r.mask.Nodup)
    (hl : ∀ r ∈ regions, r.weights.length = r.mask.length) (hpos : ∀ r ∈ regions, ∀ p ∈ r.mask, 0 ≤ p.2)
    (hw : only = true → ∀ r ∈ regions, ∀ w ∈ r.weights, w = 1) (hne : ∃ r ∈ regions, r.mask ≠ []) :
    ∃ rs, normalizeMasks regions only = .ok rs ∧ rs.map Region.mask = regions.map Region.mask ∧
      (∀ r ∈ rs, ∀ p ∈ r.mask, weightOf r.mask r.weights p = 1 / (painted regions p : Rat)) ∧
      (∀ p, (rs.map fun r => weightOf r.mask r.weights p).sum = if ∃ r ∈ regions, p ∈ r.mask then 1 else 0) := by
  have hall : ∀ p ∈ regions.flatMap Region.mask, 0 ≤ p.2 := by
    intro p hp
    obtain ⟨r, hr, hpr⟩ := List.mem_flatMap.mp hp
    exact hpos r hr p hpr
  have hupd : ∀ r ∈ regions, ∀ p ∈ r.mask, weightOf (updateRegion (paintCounts (regions.flatMap Region.mask) only) r).mask
      (updateRegion (paintCounts (regions.flatMap Region.mask) only) r).weights p = 1 / (painted regions p : Rat) := by
    intro r hr p hp
    rw [updated_weight hall only (fun q hq => List.mem_flatMap.mpr ⟨r, hr, hq⟩) (hnd r hr) (hl r hr) (fun ho => hw ho r hr) hp,
      count_all regions hnd]
  unfold normalizeMasks
  dsimp only
  rw [if_neg (by
    obtain ⟨r, hr, hm⟩ := hne
    obtain ⟨p, hp⟩ := List.exists_mem_of_ne_nil _ hm
    exact List.ne_nil_of_mem (List.mem_flatMap.mpr ⟨r, hr, hp⟩))]
  refine ⟨_, rfl, ?_, ?_, ?_⟩
  · rw [List.map_map]; rfl
  · intro r hr p hp
    obtain ⟨r', hr', rfl⟩ := List.mem_map.mp hr
    exact hupd r' hr' p hp
  · intro p
    rw [List.map_map]
    have hsum : ∀ l : List Region, (∀ r ∈ l, r ∈ regions) →
        (l.map ((fun r => weightOf r.mask r.weights p) ∘ updateRegion (paintCounts (regions.flatMap Region.mask) only))).sum =
        (painted l p : Rat) * (1 / (painted regions p : Rat)) := by
      intro l hlr
      induction l with
      | nil => simp [painted]
      | cons r l ih =>
        rw [List.map_cons, List.sum_cons, ih fun s hs => hlr s (List.mem_cons_of_mem _ hs)]
        unfold painted
        rw [List.countP_cons]
        by_cases hp : p ∈ r.mask
        · have := hupd r (hlr r (by simp)) p hp
          simp only [Function.comp_apply]
          rw [this, if_pos (by simpa using hp)]
          unfold painted
          push_cast; ring
        · have : weightOf (updateRegion (paintCounts (regions.flatMap Region.mask) only) r).mask
              (updateRegion (paintCounts (regions.flatMap Region.mask) only) r).weights p = 0 := weightOf_not_mem _ hp
          simp only [Function.comp_apply]
          rw [this, if_neg (by simpa using hp)]
          simp
    rw [hsum regions fun _ h => h]
    by_cases hex : ∃ r ∈ regions, p ∈ r.mask
    · rw [if_pos hex]
      have : 0 < painted regions p := by
        unfold painted
        rw [List.countP_pos_iff]
        obtain ⟨r, hr, hp⟩ := hex
        exact ⟨r, hr, by simpa using hp⟩
      have hne : (painted regions p : Rat) ≠ 0 := by exact_mod_cast this.ne'
      field_simp
    · rw [if_neg hex]
      have : painted regions p = 0 := by
        unfold painted
        rw [List.countP_eq_zero]
        intro r hr hp
        exact hex ⟨r, hr, by simpa using hp⟩
      rw [this]; simp

/-- The hypotheses can be met: two overlapping boxes. -/
example : ∃ a b rs, mkBox boxHull 0 2 0 1 none = .ok a ∧ mkBox boxHull 1 3 0 1 none = .ok b ∧ a.mask.Nodup ∧ b.mask.Nodup ∧
    (∀ p ∈ a.mask ++ b.mask, 0 ≤ p.2) ∧ normalizeMasks [a, b] true = .ok rs ∧
    rs.map (fun r => r.weights) = [[1, 1, 1 / 2, 1 / 2, 1 / 2, 1 / 2], [1 / 2, 1 / 2, 1 / 2, 1 / 2, 1, 1]] := by
  refine ⟨_, _, _, rfl, rfl, ?_, ?_, ?_, rfl, ?_⟩ <;> decide +kernel

/-- **C71 violated.** If another region has a pixel left of the origin, two different pixels can get the same number: the pixel
`(0, 1)` is only in the first region, but gets the weight one half. -/
theorem C71_violated {hull : HullFn} (hh : BoxHull hull) : ∃ a b rs, mkBox hull 0 1 0 1 (some [(0, 1)]) = .ok a ∧
    mkBox hull (-1) 0 0 1 (some [(1, -1)]) = .ok b ∧ normalizeMasks [a, b] true = .ok rs ∧ painted [a, b] (0, 1) = 1 ∧
    (rs.map fun r => weightOf r.mask r.weights (0, 1)).sum = 1 / 2 := by
  obtain ⟨a, ha, hab, _, _, _, _, _, _, hma, hwa⟩ := mkBox_ok hh (xl := 0) (xu := 1) (yl := 0) (yu := 1) (by decide) (by decide) (some [(0, 1)])
  obtain ⟨b, hb, hbb, _, _, _, _, _, _, hmb, hwb⟩ := mkBox_ok hh (xl := -1) (xu := 0) (yl := 0) (yu := 1) (by decide) (by decide) (some [(1, -1)])
  have ma : a.mask = [(0, 1)] := hma
  have mb : b.mask = [(1, -1)] := hmb
  rw [ma] at hwa
  rw [mb] at hwb
  refine ⟨a, b, [a, b].map (updateRegion (paintCounts ([a, b].flatMap Region.mask) true)), ha, hb, ?_, ?_, ?_⟩
  · unfold normalizeMasks
    dsimp only
    rw [if_neg (by simp [ma])]
  · simp [painted, ma, mb]
  · have hc : paintCounts ([a, b].flatMap Region.mask) true = [(1 / 2, (0, 1))] := by
      simp only [List.flatMap_cons, List.flatMap_nil, ma, mb]
      decide +kernel
    rw [hc]
    unfold updateRegion
    simp only [List.map_cons, List.map_nil, ma, mb, hwa, hwb, hab, hbb]
    decide +kernel

/-- **C71.** If no mask has a pixel, there is an `IndexError`. -/
theorem C71_empty (regions : List Region) (only : Bool) (h : ∀ r ∈ regions, r.mask = []) :
    normalizeMasks regions only = .error .indexError := by
  unfold normalizeMasks
  dsimp only
  rw [if_pos]
  rw [List.flatMap_eq_nil_iff]
  exact h

end Verif.Linalg.Geometry
