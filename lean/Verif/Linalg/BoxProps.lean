/-
C68, C69, C70: splitting and padding boxes, and the axis-aligned bounding box of a hull.
-/
import Verif.Linalg.HullProps

set_option autoImplicit false

namespace Verif.Linalg.Geometry

/-! ### C68 -/

theorem ceilDiv_spec (a : Int) {n : Nat} (hn : 1 ≤ n) : a ≤ n * ceilDiv a n ∧ n * ceilDiv a n < a + n := by
  unfold ceilDiv
  have h1 := Int.mul_ediv_add_emod (-a) n
  have h2 := Int.emod_nonneg (-a) (b := (n : Int)) (by omega)
  have h3 := Int.emod_lt_of_pos (-a) (b := (n : Int)) (by omega)
  have : (n : Int) * -(-a / n) = -(n * (-a / n)) := by ring
  omega

/-- The sub-intervals hold each integer of the interval once. -/
theorem splitAxis_count {l u : Int} {n : Nat} (hn : 1 ≤ n) (hw : ((n : Int) - 1) * ceilDiv (u - l + 1) n + 1 ≤ u - l + 1)
    (hl : l ≤ u) (x : Int) :
    (splitAxis l u n).countP (fun I => decide (I.1 ≤ x ∧ x ≤ I.2)) = if l ≤ x ∧ x ≤ u then 1 else 0 := by
  obtain ⟨c1, c2⟩ := ceilDiv_spec (u - l + 1) hn
  unfold splitAxis
  dsimp only
  generalize ceilDiv (u - l + 1) n = k at *
  have hk : 0 < k := by
    by_contra h
    have : (n : Int) * k ≤ 0 := mul_nonpos_of_nonneg_of_nonpos (by omega) (by omega)
    omega
  rw [List.countP_map]
  have heq : ∀ i ∈ List.range n, ((fun I : Int × Int => decide (I.1 ≤ x ∧ x ≤ I.2)) ∘ fun i : Nat => (l + i * k,
      if i + 1 = n then max u (min (l + (i + 1) * k - 1) u) else l + (i + 1) * k - 1)) i = true ↔
      (decide (l ≤ x ∧ x ≤ u ∧ i = ((x - l) / k).toNat)) = true := by
    intro i hi
    rw [List.mem_range] at hi
    simp only [Function.comp_apply, decide_eq_true_eq]
    have hd1 := Int.mul_ediv_add_emod (x - l) k
    have hd2 := Int.emod_nonneg (x - l) (b := k) (by omega)
    have hd3 := Int.emod_lt_of_pos (x - l) hk
    have hik : (i : Int) * k ≥ 0 := mul_nonneg (by omega) hk.le
    constructor
    · rintro ⟨a, b⟩
      have hxu : x ≤ u := by
        by_cases h : i + 1 = n
        · rw [if_pos h] at b; omega
        · rw [if_neg h] at b
          have : ((i : Int) + 1) * k ≤ ((n : Int) - 1) * k := mul_le_mul_of_nonneg_right (by omega) hk.le
          omega
      have hup : x < l + (i + 1) * k := by
        by_cases h : i + 1 = n
        · have : ((i : Int) + 1) = n := by omega
          rw [this]; omega
        · rw [if_neg h] at b; omega
      refine ⟨by omega, hxu, ?_⟩
      have : (x - l) / k = i := by
        apply le_antisymm
        · have := Int.ediv_lt_of_lt_mul hk (a := x - l) (b := (i : Int) + 1) (by linarith)
          omega
        · exact Int.le_ediv_of_mul_le hk (by linarith)
      rw [this]; simp
    · rintro ⟨a, b, rfl⟩
      have hq : 0 ≤ (x - l) / k := Int.ediv_nonneg (by omega) hk.le
      have hcast : ((((x - l) / k).toNat : Nat) : Int) = (x - l) / k := by omega
      rw [hcast]
      generalize (x - l) / k = q at *
      have e1 : k * q = q * k := mul_comm _ _
      have e2 : (q + 1) * k = q * k + k := by ring
      refine ⟨by omega, ?_⟩
      split
      · omega
      · omega
  rw [List.countP_congr heq]
  by_cases hx : l ≤ x ∧ x ≤ u
  · rw [if_pos hx]
    have : ((x - l) / k).toNat < n := by
      have h1 : (x - l) / k < n := Int.ediv_lt_of_lt_mul hk (by linarith [hx.2])
      have h2 : 0 ≤ (x - l) / k := Int.ediv_nonneg (by omega) hk.le
      omega
    have hc : (List.range n).count ((x - l) / k).toNat = 1 := by
      rw [List.nodup_range.count, if_pos (List.mem_range.mpr this)]
    rw [← hc, List.count]
    apply List.countP_congr
    intro i _
    simp only [decide_eq_true_eq, beq_iff_eq]
    tauto
  · rw [if_neg hx, List.countP_eq_zero]
    intro i _
    simp only [decide_eq_true_eq]
    tauto

theorem countP_product {α β : Type} (as : List α) (bs : List β) (p : α → Bool) (q : β → Bool) :
    (as.flatMap fun a => bs.map fun b => (b, a)).countP (fun z => q z.1 && p z.2) = as.countP p * bs.countP q := by
  induction as with
  | nil => simp
  | cons a as ih =>
    rw [List.flatMap_cons, List.countP_append, ih, List.countP_cons, List.countP_map]
    by_cases h : p a = true
    · have : ((fun z : β × α => q z.1 && p z.2) ∘ fun b => (b, a)) = q := by
        funext b; simp [h]
      rw [this, if_pos h]; ring
    · have : ((fun z : β × α => q z.1 && p z.2) ∘ fun b => (b, a)) = fun _ => false := by
        funext b; simp [h]
      rw [this, if_neg h]; simp

/-- All boxes of a list of limits can be made. -/
theorem mapM_mkBox {hull : HullFn} (hh : BoxHull hull) (m : List (Int × Int)) : ∀ L : List ((Int × Int) × (Int × Int)),
    (∀ p ∈ L, p.1.1 < p.1.2 ∧ p.2.1 < p.2.2) →
    ∃ rs, L.mapM (fun p => mkBox hull p.1.1 p.1.2 p.2.1 p.2.2 (some m)) = .ok rs ∧
      List.Forall₂ (fun p r => mkBox hull p.1.1 p.1.2 p.2.1 p.2.2 (some m) = .ok r) L rs := by
  intro L
  induction L with
  | nil => intro _; exact ⟨[], rfl, .nil⟩
  | cons p L ih =>
    intro h
    obtain ⟨rs, h1, h2⟩ := ih fun q hq => h q (List.mem_cons_of_mem _ hq)
    have hp := h p (by simp)
    obtain ⟨r, hr, _⟩ := mkBox_ok hh (ne_of_lt hp.1) (ne_of_lt hp.2) (some m)
    refine ⟨r :: rs, ?_, .cons hr h2⟩
    rw [List.mapM_cons, hr, h1]
    rfl

theorem contains_iff_limits {hull : HullFn} (hh : BoxHull hull) {xl xu yl yu : Int} (hx : xl < xu) (hy : yl < yu)
    {m : Option (List (Int × Int))} {r : Region} (h : mkBox hull xl xu yl yu m = .ok r) (x y : Int) :
    r.contains (toQ (x, y)) = (decide (xl ≤ x ∧ x ≤ xu) && decide (yl ≤ y ∧ y ≤ yu)) := by
  obtain ⟨r', h1, h2⟩ := C67_box hh xl xu yl yu hx hy m
  rw [h] at h1
  cases h1
  rw [Bool.eq_iff_iff, h2]
  simp only [Bool.and_eq_true, decide_eq_true_eq]
  tauto

theorem mask_of_mkBox {hull : HullFn} (hh : BoxHull hull) {xl xu yl yu : Int} (hx : xl < xu) (hy : yl < yu)
    {m : List (Int × Int)} {r : Region} (h : mkBox hull xl xu yl yu (some m) = .ok r) :
    r.mask = m.filter fun p => decide (xl ≤ p.2 ∧ p.2 ≤ xu) && decide (yl ≤ p.1 ∧ p.1 ≤ yu) := by
  obtain ⟨r', h1, _, _, _, _, _, _, _, h2, _⟩ := mkBox_ok hh (ne_of_lt hx) (ne_of_lt hy) (some m)
  rw [h] at h1
  cases h1
  rw [h2]
  dsimp only
  apply List.filter_congr
  intro p _
  rw [Bool.eq_iff_iff]
  simp only [Bool.and_eq_true, decide_eq_true_eq, min_eq_left hx.le, min_eq_left hy.le, max_eq_right hx.le, max_eq_right hy.le]
  tauto

theorem splitAxis_lt {l u : Int} {n : Nat} (hk : 2 ≤ ceilDiv (u - l + 1) n)
    (hw : ((n : Int) - 1) * ceilDiv (u - l + 1) n + 2 ≤ u - l + 1) {I : Int × Int} (hI : I ∈ splitAxis l u n) : I.1 < I.2 := by
  unfold splitAxis at hI
  obtain ⟨i, hi, rfl⟩ := List.mem_map.mp hI
  rw [List.mem_range] at hi
  dsimp only
  generalize ceilDiv (u - l + 1) n = k at *
  have : ((i : Int) + 1) * k = i * k + k := by ring
  split
  · rename_i h
    have : (i : Int) = n - 1 := by omega
    rw [this]; omega
  · omega

/-- The number of regions of a list that contain a pixel. -/
def covering (rs : List Region) (x y : Int) : Nat := rs.countP fun r => r.contains (toQ (x, y))

/-- **C68 (partial).** If every sub-box is at least two pixels wide and high, splitting a box in `n × n` boxes gives `n²` boxes, and
every pixel of the box is in exactly one of them, every other pixel in none. The pixels of the mask are distributed likewise: the
masks of the sub-boxes together have every pixel as often as the mask of the box.
Missing: numbers of boxes for which a sub-box would have a width or height of less than two pixels, see `C68_one_pixel` and
`C68_violated`. -/
theorem C68_partition_partial {hull : HullFn} (hh : BoxHull hull) {xl xu yl yu : Int} (hx : xl < xu) (hy : yl < yu)
    {mask : Option (List (Int × Int))} {b : Region} (hb : mkBox hull xl xu yl yu mask = .ok b) (n : Nat) (hn : 1 ≤ n)
    (hkx : 2 ≤ ceilDiv (xu - xl + 1) n) (hwx : ((n : Int) - 1) * ceilDiv (xu - xl + 1) n + 2 ≤ xu - xl + 1)
    (hky : 2 ≤ ceilDiv (yu - yl + 1) n) (hwy : ((n : Int) - 1) * ceilDiv (yu - yl + 1) n + 2 ≤ yu - yl + 1) :
    ∃ rs, splitBox hull b n = .ok rs ∧ rs.length = n * n ∧
      (∀ x y : Int, covering rs x y = if xl ≤ x ∧ x ≤ xu ∧ yl ≤ y ∧ y ≤ yu then 1 else 0) ∧
      (∀ y x : Int, xl ≤ x ∧ x ≤ xu ∧ yl ≤ y ∧ y ≤ yu → (rs.map fun r => r.mask.count (y, x)).sum = b.mask.count (y, x)) := by
  obtain ⟨b', h1, _, e1, e2, e3, e4, _⟩ := mkBox_ok hh (ne_of_lt hx) (ne_of_lt hy) mask
  rw [hb] at h1
  cases h1
  rw [min_eq_left hx.le] at e1
  rw [max_eq_right hx.le] at e2
  rw [min_eq_left hy.le] at e3
  rw [max_eq_right hy.le] at e4
  unfold splitBox
  rw [if_pos (by omega), e1, e2, e3, e4, Int.toNat_natCast]
  have hlt : ∀ p ∈ ((splitAxis yl yu n).flatMap fun y => (splitAxis xl xu n).map fun x => (x, y)), p.1.1 < p.1.2 ∧ p.2.1 < p.2.2 := by
    intro p hp
    simp only [List.mem_flatMap, List.mem_map] at hp
    obtain ⟨Y, hY, X, hX, rfl⟩ := hp
    exact ⟨splitAxis_lt hkx hwx hX, splitAxis_lt hky hwy hY⟩
  obtain ⟨rs, hrs, hf⟩ := mapM_mkBox hh b.mask _ hlt
  refine ⟨rs, hrs, ?_, ?_, ?_⟩
  · rw [← hf.length_eq]
    have hlen : ∀ (as bs : List (Int × Int)), (as.flatMap fun a => bs.map fun b => (b, a)).length = as.length * bs.length := by
      intro as bs
      induction as with
      | nil => simp
      | cons a as ih => rw [List.flatMap_cons, List.length_append, ih, List.length_map, List.length_cons]; ring
    rw [hlen]
    simp [splitAxis]
  · intro x y
    have : covering rs x y = ((splitAxis yl yu n).flatMap fun y => (splitAxis xl xu n).map fun x => (x, y)).countP
        (fun z => decide (z.1.1 ≤ x ∧ x ≤ z.1.2) && decide (z.2.1 ≤ y ∧ y ≤ z.2.2)) := by
      unfold covering
      generalize ((splitAxis yl yu n).flatMap fun y => (splitAxis xl xu n).map fun x => (x, y)) = L at hf hlt
      clear hrs
      induction hf with
      | nil => rfl
      | cons hr hf ih =>
        rw [List.countP_cons, List.countP_cons, ih fun p hp => hlt p (List.mem_cons_of_mem _ hp)]
        have := hlt _ (List.mem_cons_self)
        rw [contains_iff_limits hh this.1 this.2 hr]
    rw [this, countP_product _ _ (fun I : Int × Int => decide (I.1 ≤ y ∧ y ≤ I.2)) (fun I : Int × Int => decide (I.1 ≤ x ∧ x ≤ I.2)),
      splitAxis_count hn (by omega) hx.le, splitAxis_count hn (by omega) hy.le]
    by_cases h1 : xl ≤ x ∧ x ≤ xu <;> by_cases h2 : yl ≤ y ∧ y ≤ yu
    · rw [if_pos h1, if_pos h2, if_pos ⟨h1.1, h1.2, h2⟩]
    · rw [if_pos h1, if_neg h2, if_neg (by tauto)]
    · rw [if_neg h1, if_pos h2, if_neg (by tauto)]
    · rw [if_neg h1, if_neg h2, if_neg (by tauto)]
  · intro y x hin
    have : (rs.map fun r => r.mask.count (y, x)).sum = ((splitAxis yl yu n).flatMap fun y => (splitAxis xl xu n).map fun x => (x, y)).countP
        (fun z => decide (z.1.1 ≤ x ∧ x ≤ z.1.2) && decide (z.2.1 ≤ y ∧ y ≤ z.2.2)) * b.mask.count (y, x) := by
      generalize ((splitAxis yl yu n).flatMap fun y => (splitAxis xl xu n).map fun x => (x, y)) = L at hf hlt
      clear hrs
      induction hf with
      | nil => simp
      | @cons p r L rs hr hf ih =>
        rw [List.map_cons, List.sum_cons, List.countP_cons, ih fun p hp => hlt p (List.mem_cons_of_mem _ hp)]
        have := hlt _ (List.mem_cons_self)
        rw [mask_of_mkBox hh this.1 this.2 hr]
        by_cases hp : (decide (p.1.1 ≤ x ∧ x ≤ p.1.2) && decide (p.2.1 ≤ y ∧ y ≤ p.2.2)) = true
        · rw [List.count_filter (a := (y, x))
            (p := fun q : Int × Int => decide (p.1.1 ≤ q.2 ∧ q.2 ≤ p.1.2) && decide (p.2.1 ≤ q.1 ∧ q.1 ≤ p.2.2)) hp, if_pos hp]; ring
        · rw [if_neg hp, List.count_eq_zero_of_not_mem (by
            intro hmem
            exact hp (List.mem_filter.mp hmem).2)]
          ring
    rw [this, countP_product _ _ (fun I : Int × Int => decide (I.1 ≤ y ∧ y ≤ I.2)) (fun I : Int × Int => decide (I.1 ≤ x ∧ x ≤ I.2)),
      splitAxis_count hn (by omega) hx.le, splitAxis_count hn (by omega) hy.le, if_pos (c := xl ≤ x ∧ x ≤ xu) ⟨hin.1, hin.2.1⟩, if_pos hin.2.2]
    simp

/-- The hypotheses can be met: ten by eight pixels in three by three boxes. -/
example : (2 ≤ ceilDiv (9 - 0 + 1) 3 ∧ ((3 : Int) - 1) * ceilDiv (9 - 0 + 1) 3 + 2 ≤ 9 - 0 + 1) ∧
    (2 ≤ ceilDiv (7 - 0 + 1) 3 ∧ ((3 : Int) - 1) * ceilDiv (7 - 0 + 1) 3 + 2 ≤ 7 - 0 + 1) ∧
    ((mkBox boxHull 0 9 0 7 none).toOption.isSome = true) := by decide

/-- **C68.** If all sub-boxes would be one pixel wide or high, there is an exception and not a list of boxes: the corners are on a
line, which the convex hull does not accept. -/
theorem C68_one_pixel {hull : HullFn} (hh : BoxHull hull) {xl xu yl yu : Int} (hx : xl < xu) (hy : yl < yu)
    {mask : Option (List (Int × Int))} {b : Region} (hb : mkBox hull xl xu yl yu mask = .ok b)
    (n : Nat) (hn : 2 ≤ n) (hw : xu - xl + 1 ≤ n ∨ yu - yl + 1 ≤ n) : splitBox hull b n = .error .runtimeError := by
  obtain ⟨b', h1, _, e1, e2, e3, e4, _⟩ := mkBox_ok hh (ne_of_lt hx) (ne_of_lt hy) mask
  rw [hb] at h1
  cases h1
  rw [min_eq_left hx.le] at e1
  rw [max_eq_right hx.le] at e2
  rw [min_eq_left hy.le] at e3
  rw [max_eq_right hy.le] at e4
  have hone : ∀ l u : Int, l < u → u - l + 1 ≤ n → ∃ L, splitAxis l u n = (l, l) :: L := by
    intro l u hl hu
    obtain ⟨c1, c2⟩ := ceilDiv_spec (u - l + 1) (n := n) (by omega)
    have hk : ceilDiv (u - l + 1) n = 1 := by
      generalize ceilDiv (u - l + 1) n = k at *
      have a1 : 0 < k := by
        by_contra h
        have : (n : Int) * k ≤ 0 := mul_nonpos_of_nonneg_of_nonpos (by omega) (by omega)
        omega
      have a2 : k < 2 := by
        by_contra h
        have : (n : Int) * 2 ≤ (n : Int) * k := mul_le_mul_of_nonneg_left (by omega) (by omega)
        omega
      omega
    unfold splitAxis
    dsimp only
    rw [hk]
    obtain ⟨m, rfl⟩ : ∃ m, n = m + 1 := ⟨n - 1, by omega⟩
    rw [List.range_succ_eq_map, List.map_cons]
    refine ⟨_, congrArg (· :: _) ?_⟩
    rw [if_neg (by omega)]
    simp
  have hne : ∀ l u : Int, ∃ I L, splitAxis l u n = I :: L := by
    intro l u
    unfold splitAxis
    obtain ⟨m, rfl⟩ : ∃ m, n = m + 1 := ⟨n - 1, by omega⟩
    rw [List.range_succ_eq_map, List.map_cons]
    exact ⟨_, _, rfl⟩
  unfold splitBox
  rw [if_pos (by omega), e1, e2, e3, e4, Int.toNat_natCast]
  rcases hw with hw | hw
  · obtain ⟨L, hL⟩ := hone xl xu hx hw
    obtain ⟨I, M, hM⟩ := hne yl yu
    rw [hL, hM, List.flatMap_cons, List.map_cons, List.cons_append, List.mapM_cons, mkBox_flat hh (Or.inl rfl)]
    rfl
  · obtain ⟨L, hL⟩ := hone yl yu hy hw
    obtain ⟨I, M, hM⟩ := hne xl xu
    rw [hL, hM, List.flatMap_cons, List.map_cons, List.cons_append, List.mapM_cons, mkBox_flat hh (Or.inr rfl)]
    rfl

/-- **C68 violated.** Splitting the box of four by nine pixels `[0, 3] × [0, 8]` in three by three boxes gives boxes that leave the
box and overlap: the last column of boxes has the limits four and three in the first direction, i.e. the two pixels three and
four, although the preceding column already has the pixels two and three. -/
theorem C68_violated {hull : HullFn} (hh : BoxHull hull) : ∃ b rs, mkBox hull 0 3 0 8 none = .ok b ∧ splitBox hull b 3 = .ok rs ∧
    covering rs 4 0 = 1 ∧ covering rs 3 0 = 2 ∧ b.contains (toQ (4, 0)) = false := by
  obtain ⟨b, h1, hib, e1, e2, e3, e4, _⟩ := mkBox_ok hh (xl := 0) (xu := 3) (yl := 0) (yu := 8) (by decide) (by decide) none
  have hs : ((splitAxis 0 8 3).flatMap fun y => (splitAxis 0 3 3).map fun x => (x, y)) =
      [((0, 1), (0, 2)), ((2, 3), (0, 2)), ((4, 3), (0, 2)), ((0, 1), (3, 5)), ((2, 3), (3, 5)), ((4, 3), (3, 5)),
       ((0, 1), (6, 8)), ((2, 3), (6, 8)), ((4, 3), (6, 8))] := by decide
  have hall : ∀ L : List ((Int × Int) × (Int × Int)), (∀ p ∈ L, p.1.1 ≠ p.1.2 ∧ p.2.1 ≠ p.2.2) →
      ∃ rs, L.mapM (fun p => mkBox hull p.1.1 p.1.2 p.2.1 p.2.2 (some b.mask)) = .ok rs ∧
      ∀ x y : Int, covering rs x y = L.countP fun p => decide (min p.1.1 p.1.2 ≤ x ∧ x ≤ max p.1.1 p.1.2 ∧
        min p.2.1 p.2.2 ≤ y ∧ y ≤ max p.2.1 p.2.2) := by
    intro L
    induction L with
    | nil => intro _; exact ⟨[], rfl, fun _ _ => rfl⟩
    | cons p L ih =>
      intro h
      obtain ⟨rs, h1, h2⟩ := ih fun q hq => h q (List.mem_cons_of_mem _ hq)
      have hp := h p (by simp)
      obtain ⟨r, hr, hib, e1, e2, e3, e4, _⟩ := mkBox_ok hh hp.1 hp.2 (some b.mask)
      refine ⟨r :: rs, ?_, ?_⟩
      · rw [List.mapM_cons, hr, h1]; rfl
      · intro x y
        unfold covering at h2 ⊢
        rw [List.countP_cons, List.countP_cons, h2]
        congr 1
        have : r.contains (toQ (x, y)) = decide (min p.1.1 p.1.2 ≤ x ∧ x ≤ max p.1.1 p.1.2 ∧
            min p.2.1 p.2.2 ≤ y ∧ y ≤ max p.2.1 p.2.2) := by
          unfold Region.contains boxContains toQ
          rw [hib, if_pos rfl, e1, e2, e3, e4, decide_eq_decide]
          dsimp only
          constructor
          · rintro ⟨a, b, c, d⟩
            exact ⟨by exact_mod_cast a, by exact_mod_cast b, by exact_mod_cast c, by exact_mod_cast d⟩
          · rintro ⟨a, b, c, d⟩
            exact ⟨by exact_mod_cast a, by exact_mod_cast b, by exact_mod_cast c, by exact_mod_cast d⟩
        rw [this]
  obtain ⟨rs, h2, h3⟩ := hall ((splitAxis 0 8 3).flatMap fun y => (splitAxis 0 3 3).map fun x => (x, y)) (by rw [hs]; decide)
  refine ⟨b, rs, h1, ?_, ?_, ?_, ?_⟩
  · unfold splitBox
    rw [if_pos (by decide), e1, e2, e3, e4]
    exact h2
  · rw [h3, hs]; decide
  · rw [h3, hs]; decide
  · rw [contains_iff_limits hh (by decide) (by decide) h1]; decide

/-- **C68.** A number of boxes below one is rejected. -/
theorem C68_reject (hull : HullFn) (b : Region) (n : Int) (hn : n < 1) : splitBox hull b n = .error .valueError := by
  unfold splitBox
  rw [if_neg (by omega)]

/-! ### C69 -/

theorem centre_box {hull : HullFn} (hh : BoxHull hull) {xl xu yl yu : Int} (hx : xl < xu) (hy : yl < yu)
    {mask : Option (List (Int × Int))} {b : Region} (hb : mkBox hull xl xu yl yu mask = .ok b) :
    centre b = (Int.tdiv (xl + xu) 2, Int.tdiv (yl + yu) 2) ∧ b.npx = (xu - xl + 1, yu - yl + 1) := by
  obtain ⟨b', h1, _, _, _, _, _, hv, hnp, _⟩ := mkBox_ok hh (ne_of_lt hx) (ne_of_lt hy) mask
  rw [hb] at h1
  cases h1
  constructor
  · unfold centre meanTrunc
    rw [hv]
    simp only [List.map_cons, List.map_nil, List.sum_cons, List.sum_nil, List.length_cons, List.length_nil]
    have : ∀ a b : Int, Int.tdiv (a + (a + (b + (b + 0)))) ((0 + 1 + 1 + 1 + 1 : Nat) : Int) = Int.tdiv (a + b) 2 := by
      intro a b
      have : a + (a + (b + (b + 0))) = 2 * (a + b) := by ring
      rw [this]
      exact Int.mul_tdiv_mul_of_pos (a := 2) (a + b) 2 (by decide)
    have h2 : yl + (yu + (yu + (yl + 0))) = yl + (yl + (yu + (yu + 0))) := by ring
    rw [this, h2, this]
  · rw [hnp, abs_of_pos (by omega), abs_of_pos (by omega)]

/-- The mean of two numbers, rounded towards zero. -/
theorem tdiv_two (s : Int) : (0 ≤ s → 2 * Int.tdiv s 2 = s - s % 2) ∧ (s < 0 → 2 * Int.tdiv s 2 = s + s % 2) := by
  have h := Int.tdiv_eq_ediv (a := s) (b := 2)
  constructor
  · intro hs
    rw [h, if_pos (Or.inl hs)]; omega
  · intro hs
    rw [h]
    split
    · rename_i h'; rcases h' with h' | h' <;> omega
    · have : Int.sign 2 = 1 := rfl
      omega

/-- **C69.** The padded box has exactly the requested numbers of pixels, at least two. -/
theorem C69_size {hull : HullFn} (hh : BoxHull hull) {xl xu yl yu : Int} (hx : xl < xu) (hy : yl < yu)
    {mask : Option (List (Int × Int))} {b : Region} (hb : mkBox hull xl xu yl yu mask = .ok b) {dnx dny : Int}
    (hdx : xu - xl + 1 ≤ dnx) (hdy : yu - yl + 1 ≤ dny) :
    ∃ r, padBox hull b dnx dny = .ok r ∧ r.npx = (dnx, dny) ∧
      maxX r.corners - minX r.corners + 1 = dnx ∧ maxY r.corners - minY r.corners + 1 = dny := by
  obtain ⟨hc, hn⟩ := centre_box hh hx hy hb
  unfold padBox
  rw [hn, if_neg (by dsimp only; omega), hc]
  dsimp only
  obtain ⟨r, h1, _, e1, e2, e3, e4, _, hnp, _⟩ := mkBox_ok hh (xl := Int.tdiv (xl + xu) 2 - dnx / 2)
    (xu := Int.tdiv (xl + xu) 2 + (dnx - dnx / 2 - 1)) (yl := Int.tdiv (yl + yu) 2 - dny / 2)
    (yu := Int.tdiv (yl + yu) 2 + (dny - dny / 2 - 1)) (by omega) (by omega) (some b.mask)
  refine ⟨r, h1, ?_, by omega, by omega⟩
  rw [hnp, Prod.mk.injEq]
  constructor
  · rw [abs_of_pos (by omega)]; omega
  · rw [abs_of_pos (by omega)]; omega

/-- **C69 (partial).** The padded box contains the box if, in each direction, the number of pixels of the box is odd, or is
increased, or the box is centred left of the origin. It keeps the mask.
Missing: boxes with an even number of pixels that are right of the origin and are not enlarged in that direction, see
`C69_violated`. -/
theorem C69_contains_partial {hull : HullFn} (hh : BoxHull hull) {xl xu yl yu : Int} (hx : xl < xu) (hy : yl < yu)
    {mask : Option (List (Int × Int))} {b : Region} (hb : mkBox hull xl xu yl yu mask = .ok b) {dnx dny : Int}
    (hdx : xu - xl + 1 ≤ dnx) (hdy : yu - yl + 1 ≤ dny)
    (hox : (xu - xl + 1) % 2 = 1 ∨ xu - xl + 1 < dnx ∨ xl + xu < 0) (hoy : (yu - yl + 1) % 2 = 1 ∨ yu - yl + 1 < dny ∨ yl + yu < 0) :
    ∃ r, padBox hull b dnx dny = .ok r ∧ (∀ x y : Int, b.contains (toQ (x, y)) = true → r.contains (toQ (x, y)) = true) ∧
      r.mask = b.mask := by
  obtain ⟨hc, hn⟩ := centre_box hh hx hy hb
  have hbm : ∀ p ∈ b.mask, xl ≤ p.2 ∧ p.2 ≤ xu ∧ yl ≤ p.1 ∧ p.1 ≤ yu := by
    obtain ⟨b', h1, _, e1, e2, e3, e4, _, _, hm, _⟩ := mkBox_ok hh (ne_of_lt hx) (ne_of_lt hy) mask
    rw [hb] at h1
    cases h1
    intro p hp
    rw [hm] at hp
    cases mask with
    | none =>
      have : (p.1, p.2) ∈ mesh b.corners := hp
      rw [mem_mesh] at this
      omega
    | some m =>
      have := (List.mem_filter.mp hp).2
      rw [decide_eq_true_iff] at this
      omega
  unfold padBox
  rw [hn, if_neg (by dsimp only; omega), hc]
  dsimp only
  have key : ∀ l u d : Int, l < u → u - l + 1 ≤ d → ((u - l + 1) % 2 = 1 ∨ u - l + 1 < d ∨ l + u < 0) →
      Int.tdiv (l + u) 2 - d / 2 ≤ l ∧ u ≤ Int.tdiv (l + u) 2 + (d - d / 2 - 1) := by
    intro l u d h1 h2 h3
    obtain ⟨t1, t2⟩ := tdiv_two (l + u)
    generalize Int.tdiv (l + u) 2 = t at *
    by_cases hs : 0 ≤ l + u
    · have := t1 hs
      omega
    · have := t2 (by omega)
      omega
  obtain ⟨kx1, kx2⟩ := key xl xu dnx hx hdx hox
  obtain ⟨ky1, ky2⟩ := key yl yu dny hy hdy hoy
  obtain ⟨r, h1, _⟩ := mkBox_ok hh (xl := Int.tdiv (xl + xu) 2 - dnx / 2)
    (xu := Int.tdiv (xl + xu) 2 + (dnx - dnx / 2 - 1)) (yl := Int.tdiv (yl + yu) 2 - dny / 2)
    (yu := Int.tdiv (yl + yu) 2 + (dny - dny / 2 - 1)) (by omega) (by omega) (some b.mask)
  refine ⟨r, h1, ?_, ?_⟩
  · intro x y hxy
    rw [contains_iff_limits hh hx hy hb] at hxy
    rw [contains_iff_limits hh (by omega) (by omega) h1]
    simp only [Bool.and_eq_true, decide_eq_true_eq] at hxy ⊢
    omega
  · rw [mask_of_mkBox hh (by omega) (by omega) h1, List.filter_eq_self]
    intro p hp
    have := hbm p hp
    simp only [Bool.and_eq_true, decide_eq_true_eq]
    omega

/-- The hypotheses can be met. -/
example : ∃ b r, mkBox boxHull 0 4 (-7) 2 none = .ok b ∧ padBox boxHull b 9 10 = .ok r ∧ minX r.corners = -2 ∧ maxX r.corners = 6 ∧
    minY r.corners = -7 ∧ maxY r.corners = 2 := by
  refine ⟨_, _, rfl, rfl, ?_, ?_, ?_, ?_⟩ <;> decide

/-- **C69 violated.** The box of the pixels zero and one, padded to its own size, becomes the box of the pixels minus one and zero,
and loses part of the mask. -/
theorem C69_violated {hull : HullFn} (hh : BoxHull hull) : ∃ b r, mkBox hull 0 1 0 1 none = .ok b ∧ padBox hull b 2 2 = .ok r ∧
    b.contains (toQ (1, 1)) = true ∧ r.contains (toQ (1, 1)) = false ∧ (1, 1) ∈ b.mask ∧ (1, 1) ∉ r.mask := by
  obtain ⟨b, h1, _, e1, e2, e3, e4, _, _, hm, _⟩ := mkBox_ok hh (xl := 0) (xu := 1) (yl := 0) (yu := 1) (by decide) (by decide) none
  obtain ⟨hc, hn⟩ := centre_box hh (by decide) (by decide) h1
  obtain ⟨r, h2, _⟩ := mkBox_ok hh (xl := -1) (xu := 0) (yl := -1) (yu := 0) (by decide) (by decide) (some b.mask)
  refine ⟨b, r, h1, ?_, ?_, ?_, ?_, ?_⟩
  · unfold padBox
    rw [hn, if_neg (by decide), hc]
    exact h2
  · rw [contains_iff_limits hh (by decide) (by decide) h1]; decide
  · rw [contains_iff_limits hh (by decide) (by decide) h2]; decide
  · rw [hm]
    show (1, 1) ∈ mesh b.corners
    rw [mem_mesh, e1, e2, e3, e4]
    decide
  · rw [mask_of_mkBox hh (by decide) (by decide) h2]
    intro h
    have := (List.mem_filter.mp h).2
    revert this
    decide

/-- **C69.** A desired size below the size of the box is rejected. -/
theorem C69_reject {hull : HullFn} (hh : BoxHull hull) {xl xu yl yu : Int} (hx : xl < xu) (hy : yl < yu)
    {mask : Option (List (Int × Int))} {b : Region} (hb : mkBox hull xl xu yl yu mask = .ok b) {dnx dny : Int}
    (hd : dnx < xu - xl + 1 ∨ dny < yu - yl + 1) : padBox hull b dnx dny = .error .valueError := by
  obtain ⟨hc, hn⟩ := centre_box hh hx hy hb
  unfold padBox
  rw [hn, if_pos (by dsimp only; omega)]

/-! ### C70 -/

/-- What is known of a new hull. -/
theorem mkHull_ok {hull : HullFn} {pts vs : List Pt} (hv : hull pts = .ok vs) (mask : Option (List (Int × Int))) :
    ∃ h, mkHull hull pts mask true = .ok h ∧ h.corners = vs.reverse ∧ h.vertices = pts ∧
      h.mask = (mask.getD (mesh vs.reverse)).filter fun p => hullContains vs.reverse ((p.2 : Rat), (p.1 : Rat)) := by
  unfold mkHull
  rw [hv]
  exact ⟨_, rfl, rfl, rfl, by simp⟩

/-- **C70 (partial).** The axis-aligned bounding box, not made square, of a hull around points contains every point, is not larger
than needed except, to have an odd number of pixels, by one pixel on the upper side, and keeps the mask. It has an odd number of
pixels in each direction if that is asked for.
Missing: square boxes, see `C70_violated`. -/
theorem C70_aligned_partial {hull : HullFn} (hh : BoxHull hull) {pts vs : List Pt} (hv : hull pts = .ok vs) (hp : IsHull pts vs)
    (mask : Option (List (Int × Int))) (odd : Bool) :
    ∃ h r, mkHull hull pts mask true = .ok h ∧ alignedBox hull h false odd = .ok r ∧
      (∀ p ∈ pts, r.contains (toQ p) = true) ∧
      (∃ a ∈ pts, ∃ b ∈ pts, ∃ c ∈ pts, ∃ d ∈ pts, minX r.corners = a.1 ∧ minY r.corners = c.2 ∧
        b.1 ≤ maxX r.corners ∧ maxX r.corners ≤ b.1 + (if odd then 1 else 0) ∧
        d.2 ≤ maxY r.corners ∧ maxY r.corners ≤ d.2 + (if odd then 1 else 0)) ∧
      (odd = true → r.npx.1 % 2 = 1 ∧ r.npx.2 % 2 = 1) ∧
      r.npx = (maxX r.corners - minX r.corners + 1, maxY r.corners - minY r.corners + 1) ∧ r.mask = h.mask := by
  obtain ⟨e1, e2, e3, e4⟩ := hp.extremes
  have h3 := hp.three
  have hD := hp.convex 0 1 2 (by omega) (by omega) (by omega)
  have hmem : ∀ i < vs.length, vs.getD i (0, 0) ∈ pts := by
    intro i hi; rw [List.getD_eq_getElem _ _ hi]; exact hp.sub _ (List.getElem_mem hi)
  have m0 := hmem 0 (by omega)
  have m1 := hmem 1 (by omega)
  have m2 := hmem 2 (by omega)
  generalize vs.getD 0 (0, 0) = v0 at *
  generalize vs.getD 1 (0, 0) = v1 at *
  generalize vs.getD 2 (0, 0) = v2 at *
  have hne : pts ≠ [] := List.ne_nil_of_mem m0
  obtain ⟨a1, b1⟩ := listMin_spec (l := pts.map Prod.fst) (by simpa using hne)
  obtain ⟨a2, b2⟩ := listMax_spec (l := pts.map Prod.fst) (by simpa using hne)
  obtain ⟨a3, b3⟩ := listMin_spec (l := pts.map Prod.snd) (by simpa using hne)
  obtain ⟨a4, b4⟩ := listMax_spec (l := pts.map Prod.snd) (by simpa using hne)
  change minX pts ∈ _ at a1
  change ∀ x ∈ _, minX pts ≤ x at b1
  change maxX pts ∈ _ at a2
  change ∀ x ∈ _, x ≤ maxX pts at b2
  change minY pts ∈ _ at a3
  change ∀ x ∈ _, minY pts ≤ x at b3
  change maxY pts ∈ _ at a4
  change ∀ x ∈ _, x ≤ maxY pts at b4
  have q : ∀ p ∈ pts, minX pts ≤ p.1 ∧ p.1 ≤ maxX pts ∧ minY pts ≤ p.2 ∧ p.2 ≤ maxY pts := fun p hp =>
    ⟨b1 _ (List.mem_map_of_mem hp), b2 _ (List.mem_map_of_mem hp), b3 _ (List.mem_map_of_mem hp), b4 _ (List.mem_map_of_mem hp)⟩
  have q0 := q v0 m0
  have q1 := q v1 m1
  have q2 := q v2 m2
  have hx : minX pts < maxX pts := by
    by_contra hc
    have h1 : v1.1 - v0.1 = 0 := by omega
    have h2 : v2.1 - v0.1 = 0 := by omega
    unfold cross at hD
    rw [h1, h2] at hD
    simp at hD
  have hy : minY pts < maxY pts := by
    by_contra hc
    have h1 : v1.2 - v0.2 = 0 := by omega
    have h2 : v2.2 - v0.2 = 0 := by omega
    unfold cross at hD
    rw [h1, h2] at hD
    simp at hD
  obtain ⟨h, hk, hcor, _, hM⟩ := mkHull_ok hv mask
  refine ⟨h, ?_⟩
  rw [hk]
  unfold alignedBox alignedLimits
  rw [if_neg (by decide), hcor]
  dsimp only
  rw [e1, e2, e3, e4]
  generalize h.mask = M at *
  have hMb : ∀ p ∈ M, minX pts ≤ p.2 ∧ p.2 ≤ maxX pts ∧ minY pts ≤ p.1 ∧ p.1 ≤ maxY pts := by
    intro p hpM
    rw [hM] at hpM
    have := (List.mem_filter.mp hpM).2
    have := hp.bounds (inner_conv hp ((hullContains_iff vs hp.three (p.2, p.1)).mp this))
    rwa [e1, e2, e3, e4] at this
  have hxo : ∃ dx, (if odd then (maxX pts - minX pts) % 2 else 0) = dx ∧ 0 ≤ dx ∧ dx ≤ (if odd then 1 else 0) ∧
      (odd = true → (maxX pts + dx - minX pts + 1) % 2 = 1) := by
    cases odd
    · exact ⟨0, rfl, le_rfl, le_rfl, by simp⟩
    · exact ⟨(maxX pts - minX pts) % 2, rfl, by omega, by simp only [if_true]; omega, by omega⟩
  have hyo : ∃ dy, (if odd then (maxY pts - minY pts) % 2 else 0) = dy ∧ 0 ≤ dy ∧ dy ≤ (if odd then 1 else 0) ∧
      (odd = true → (maxY pts + dy - minY pts + 1) % 2 = 1) := by
    cases odd
    · exact ⟨0, rfl, le_rfl, le_rfl, by simp⟩
    · exact ⟨(maxY pts - minY pts) % 2, rfl, by omega, by simp only [if_true]; omega, by omega⟩
  obtain ⟨dx, hdx, dx0, dx1, dxo⟩ := hxo
  obtain ⟨dy, hdy, dy0, dy1, dyo⟩ := hyo
  rw [hdx, hdy]
  obtain ⟨r, hr, hib, r1, r2, r3, r4, _, hnp, _⟩ := mkBox_ok hh (xl := minX pts) (xu := maxX pts + dx) (yl := minY pts)
    (yu := maxY pts + dy) (by omega) (by omega) (some M)
  rw [min_eq_left (by omega)] at r1 r3
  rw [max_eq_right (by omega)] at r2 r4
  rw [abs_of_pos (by omega), abs_of_pos (by omega)] at hnp
  refine ⟨r, rfl, hr, ?_, ?_, ?_, ?_, ?_⟩
  · intro p hp
    have := q p hp
    rw [show p = (p.1, p.2) from rfl, contains_iff_limits hh (by omega) (by omega) hr]
    simp only [Bool.and_eq_true, decide_eq_true_eq]
    omega
  · obtain ⟨p1, hp1, ep1⟩ := List.mem_map.mp a1
    obtain ⟨p2, hp2, ep2⟩ := List.mem_map.mp a2
    obtain ⟨p3, hp3, ep3⟩ := List.mem_map.mp a3
    obtain ⟨p4, hp4, ep4⟩ := List.mem_map.mp a4
    refine ⟨p1, hp1, p2, hp2, p3, hp3, p4, hp4, ?_⟩
    rw [r1, r2, r3, r4, ep1, ep2, ep3, ep4]
    refine ⟨rfl, rfl, ?_, ?_, ?_, ?_⟩ <;> omega
  · intro ho
    rw [hnp]
    exact ⟨dxo ho, dyo ho⟩
  · rw [hnp, r1, r2, r3, r4]
  · rw [mask_of_mkBox hh (by omega) (by omega) hr, List.filter_eq_self]
    intro p hp
    have := hMb p hp
    simp only [Bool.and_eq_true, decide_eq_true_eq]
    omega

/-- A hull function that also knows one triangle. -/
def triangleHull : HullFn := fun pts =>
  if pts = [(0, 0), (10, 0), (0, 1)] then .ok [(0, 0), (10, 0), (0, 1)] else boxHull pts

theorem triangleHull_spec : BoxHull triangleHull where
  ok := by
    intro xl xu yl yu hx hy
    unfold triangleHull
    rw [if_neg (by simp)]
    exact boxHull_spec.ok xl xu yl yu hx hy
  flat := by
    intro xl xu yl yu h
    unfold triangleHull
    rw [if_neg (by simp)]
    exact boxHull_spec.flat xl xu yl yu h

theorem triangle_isHull : IsHull [(0, 0), (10, 0), (0, 1)] [(0, 0), (10, 0), (0, 1)] where
  sub := by simp
  three := by decide
  convex := by
    intro i j k hij hjk hk
    simp only [List.length_cons, List.length_nil] at hk
    obtain ⟨rfl, rfl, rfl⟩ : i = 0 ∧ j = 1 ∧ k = 2 := by omega
    decide
  cover := fun p hp => conv_mem hp

/-- The hypotheses can be met. -/
example : BoxHull triangleHull ∧ triangleHull [(0, 0), (10, 0), (0, 1)] = .ok [(0, 0), (10, 0), (0, 1)] ∧
    IsHull [(0, 0), (10, 0), (0, 1)] [(0, 0), (10, 0), (0, 1)] := ⟨triangleHull_spec, rfl, triangle_isHull⟩

/-- **C70 violated.** The square bounding box of the triangle `(0, 0)`, `(10, 0)`, `(0, 1)` does not contain the vertex `(10, 0)`:
it is centred on the mean of the vertices and not on the middle of the extremes. -/
theorem C70_violated {hull : HullFn} (hh : BoxHull hull) (hv : hull [(0, 0), (10, 0), (0, 1)] = .ok [(0, 0), (10, 0), (0, 1)]) :
    IsHull [(0, 0), (10, 0), (0, 1)] [(0, 0), (10, 0), (0, 1)] ∧
    ∃ h r, mkHull hull [(0, 0), (10, 0), (0, 1)] none true = .ok h ∧ alignedBox hull h true true = .ok r ∧
      r.contains (toQ (10, 0)) = false := by
  refine ⟨triangle_isHull, ?_⟩
  obtain ⟨h, hk, hcor, hver, _⟩ := mkHull_ok hv none
  obtain ⟨r, hr, _⟩ := mkBox_ok hh (xl := -2) (xu := 8) (yl := -5) (yu := 5) (by omega) (by omega) (some h.mask)
  refine ⟨h, r, hk, ?_, ?_⟩
  · unfold alignedBox alignedLimits centre
    rw [hcor, hver]
    exact hr
  rw [contains_iff_limits hh (by omega) (by omega) hr]
  decide

end Verif.Linalg.Geometry
