/-
C55 (beam_grids) and C56 (beam_filenames).
-/
import Verif.Util.Beams
import Verif.Util.ShapesProps
import Mathlib.Data.List.TakeWhile
import Mathlib.Data.List.Dedup

set_option autoImplicit false

namespace Verif.Util

/-! ### Dictionaries -/

theorem lookup_dictSet {κ υ : Type} [DecidableEq κ] (d : List (κ × υ)) (k k' : κ) (v : υ) :
    (dictSet d k v).lookup k' = if k' = k then some v else d.lookup k' := by
  unfold dictSet
  by_cases h : (d.lookup k).isSome = true
  · rw [if_pos h]
    induction d with
    | nil => simp at h
    | cons p d ih =>
      obtain ⟨a, b⟩ := p
      rw [List.map_cons]
      by_cases ha : a = k
      · subst ha
        simp only [if_true]
        rw [List.lookup_cons, List.lookup_cons]
        by_cases hk : k' = a
        · subst hk; simp
        · have hk' : (k' == a) = false := by simpa using hk
          rw [hk', if_neg hk]
          simp only
          have hmap : ∀ d : List (κ × υ), (d.map fun p => if p.1 = a then (a, v) else p).lookup k' = d.lookup k' := by
            intro d
            induction d with
            | nil => rfl
            | cons q d ih2 =>
              rw [List.map_cons]
              by_cases hq : q.1 = a
              · rw [if_pos hq, List.lookup_cons, List.lookup_cons, hk']
                have : (k' == q.1) = false := by rw [hq]; exact hk'
                rw [this]; exact ih2
              · rw [if_neg hq, List.lookup_cons, List.lookup_cons, ih2]
          exact hmap d
      · simp only [if_neg ha]
        have hka : (k == a) = false := by simpa using fun e => ha (Eq.symm e)
        rw [List.lookup_cons, hka] at h
        rw [List.lookup_cons, List.lookup_cons]
        by_cases hk : k' = a
        · subst hk
          simp [ha]
        · have hk' : (k' == a) = false := by simpa using hk
          rw [hk']
          exact ih h
  · rw [if_neg h]
    rw [List.lookup_append]
    by_cases hk : k' = k
    · subst hk
      simp only [Bool.not_eq_true, Option.isSome_eq_false_iff, Option.isNone_iff_eq_none] at h
      simp [h]
    · have hk' : (k' == k) = false := by simpa using hk
      simp [hk, List.lookup_cons, hk']

theorem keys_dictSet {κ υ : Type} [DecidableEq κ] (d : List (κ × υ)) (k : κ) (v : υ) :
    (dictSet d k v).map Prod.fst = if k ∈ d.map Prod.fst then d.map Prod.fst else d.map Prod.fst ++ [k] := by
  have hiff : (d.lookup k).isSome = true ↔ k ∈ d.map Prod.fst := by
    induction d with
    | nil => simp
    | cons p d ih =>
      rw [List.lookup_cons, List.map_cons, List.mem_cons]
      by_cases hk : k = p.1
      · simp [hk]
      · have : (k == p.1) = false := by simpa using hk
        rw [this]
        simp only [hk, false_or]
        exact ih
  unfold dictSet
  by_cases h : k ∈ d.map Prod.fst
  · rw [if_pos h, if_pos (hiff.2 h), List.map_map]
    apply List.map_congr_left
    intro p _
    by_cases hp : p.1 = k
    · simp [hp]
    · simp [hp]
  · rw [if_neg h, if_neg (fun hh => h (hiff.1 hh)), List.map_append]
    rfl

/-- The dictionary built from pairs: the keys are the distinct keys, and a key has the value of its last pair. -/
theorem dictOf_spec {κ υ : Type} [DecidableEq κ] (l : List (κ × υ)) :
    ((dictOf l).map Prod.fst).Nodup ∧ (∀ k, k ∈ (dictOf l).map Prod.fst ↔ k ∈ l.map Prod.fst) ∧
    ∀ k, (dictOf l).lookup k = l.reverse.lookup k := by
  induction l using List.reverseRecOn with
  | nil => simp [dictOf]
  | append_singleton l p ih =>
    have e : dictOf (l ++ [p]) = dictSet (dictOf l) p.1 p.2 := by simp [dictOf]
    obtain ⟨h1, h2, h3⟩ := ih
    rw [e, keys_dictSet]
    refine ⟨?_, ?_, ?_⟩
    · split
      · exact h1
      · rename_i hn
        rw [List.nodup_append]
        exact ⟨h1, by simp, by intro a ha b hb; rw [List.mem_singleton.1 hb]; rintro rfl; exact hn ha⟩
    · intro k
      split
      · rename_i hy
        rw [h2, List.map_append, List.mem_append]
        constructor
        · exact Or.inl
        · rintro (h | h)
          · exact h
          · simp only [List.map_cons, List.map_nil, List.mem_singleton] at h
            rw [h]; exact (h2 _).1 hy
      · rw [List.mem_append, h2, List.map_append, List.mem_append]; simp
    · intro k
      rw [lookup_dictSet, List.reverse_append, List.reverse_singleton, List.singleton_append, List.lookup_cons, h3]
      by_cases hk : k = p.1
      · simp [hk]
      · have : (k == p.1) = false := by simpa using hk
        rw [this, if_neg hk]

end Verif.Util

namespace Verif.Util.Beams

open Verif.Util

/-! ### Specification of the grids -/

/-- The types of the three axes. -/
def IsL (c : List Char) : Prop := upper c ∈ ["L".toList, "X".toList, "PX".toList]
def IsM (c : List Char) : Prop := upper c ∈ ["M".toList, "Y".toList, "PY".toList]
def IsFreq (c : List Char) : Prop := c = "FREQ".toList

/-- The type of axis `n`, counted from one. -/
def typeOf (h : Header) (n : Nat) : List Char := strip ((h.axis n).ctype.getD [])

/-- The header has all required keys for its `n` axes. -/
def Complete (h : Header) (n : Nat) : Prop :=
  h.naxis = some n ∧ ∀ i, 1 ≤ i → i ≤ n → (h.axis i).ctype.isSome ∧ (h.axis i).crpix.isSome ∧ (h.axis i).naxis.isSome

/-- Axis `i` is the last of the `n` axes with a property. -/
def LastAxis (h : Header) (n : Nat) (P : List Char → Prop) (i : Nat) : Prop :=
  1 ≤ i ∧ i ≤ n ∧ P (typeOf h i) ∧ ∀ j, i < j → j ≤ n → ¬ P (typeOf h j)

/-- The FITS coordinate of pixel `p` (counted from one) on an axis, in radians if the unit is degrees. -/
noncomputable def fitsCoord (k : AxisKeys) (p : ℝ) : ℝ :=
  (if upper (strip (k.cunit.getD [])) = "DEG".toList then Real.pi / 180 else 1) *
    (k.crval.getD 0 + k.cdelt.getD 1 * (p - k.crpix.getD 0))

/-- The grid of axis `i`: FITS coordinates, or the point values if all of them are given. -/
def GridOf (h : Header) (i npix : Nat) (g : Nat → ℝ) : Prop :=
  (h.axis i).naxis = some npix ∧
  ((∃ j, 1 ≤ j ∧ j ≤ npix ∧ h.irregular (typeOf h i) j = none) →
    ∀ j, j < npix → g j = fitsCoord (h.axis i) (j + 1)) ∧
  ((∀ j, 1 ≤ j → j ≤ npix → h.irregular (typeOf h i) j ≠ none) →
    ∀ j, j < npix → h.irregular (typeOf h i) (j + 1) = some (g j))

/-! ### C55 -/

theorem beamAxes_ok {h : Header} {axes : List Axis} (hb : beamAxes h = .ok axes) :
    ∃ n, Complete h n ∧ axes = (List.range n).map fun i =>
      ⟨(h.axis (i + 1)).naxis.getD 0, typeOf h (i + 1),
        axisGrid h (h.axis (i + 1)) (typeOf h (i + 1)) ((h.axis (i + 1)).naxis.getD 0) ((h.axis (i + 1)).crpix.getD 0 - 1)⟩ := by
  unfold beamAxes at hb
  cases hn : h.naxis with
  | none => rw [hn] at hb; cases hb
  | some n =>
    rw [hn] at hb
    simp only at hb
    split at hb
    · cases hb
    rename_i h1
    split at hb
    · cases hb
    rename_i h2
    split at hb
    · cases hb
    rename_i h3
    simp only [List.any_eq_true, List.mem_map, List.mem_range, not_exists, not_and, Bool.not_eq_true] at h1 h2 h3
    refine ⟨n, ⟨hn, ?_⟩, ?_⟩
    · intro i hi1 hi2
      have e : i - 1 + 1 = i := by omega
      have a1 := h1 _ ⟨i - 1, by omega, rfl⟩
      have a2 := h2 _ ⟨i - 1, by omega, rfl⟩
      have a3 := h3 _ ⟨i - 1, by omega, rfl⟩
      rw [e] at a1 a2 a3
      simp only [Option.isNone_eq_false_iff] at a1 a2 a3
      exact ⟨a1, a2, a3⟩
    · simp only [Except.ok.injEq] at hb
      rw [← hb, List.map_map]
      rfl

theorem beamAxes_of {h : Header} {n : Nat} (hc : Complete h n) : ∃ axes, beamAxes h = .ok axes := by
  unfold beamAxes
  rw [hc.1]
  simp only
  have key : ∀ {P : AxisKeys → Bool}, (∀ i, 1 ≤ i → i ≤ n → P (h.axis i) = false) →
      ¬ (((List.range n).map fun i => h.axis (i + 1)).any P = true) := by
    intro P hP
    simp only [List.any_eq_true, List.mem_map, List.mem_range, not_exists, not_and, Bool.not_eq_true]
    rintro k ⟨i, hi, rfl⟩
    exact hP (i + 1) (by omega) (by omega)
  rw [if_neg (key fun i h1 h2 => by simpa using (hc.2 i h1 h2).1),
    if_neg (key fun i h1 h2 => by simpa using (hc.2 i h1 h2).2.1),
    if_neg (key fun i h1 h2 => by simpa using (hc.2 i h1 h2).2.2)]
  exact ⟨_, rfl⟩

/-- `o` is the last position below `k` with a property. -/
def LastBelow (axes : List Axis) (k : Nat) (P : List Char → Prop) : Option Nat → Prop
  | none => ∀ i < k, ¬ P ((axes.map Axis.ctype).getD i [])
  | some i => i < k ∧ P ((axes.map Axis.ctype).getD i []) ∧ ∀ j, i < j → j < k → ¬ P ((axes.map Axis.ctype).getD j [])

theorem LastBelow.skip {axes : List Axis} {k : Nat} {P : List Char → Prop} {o : Option Nat} (h : LastBelow axes k P o)
    (hk : ¬ P ((axes.map Axis.ctype).getD k [])) : LastBelow axes (k + 1) P o := by
  cases o with
  | none =>
    intro i hi
    rcases Nat.lt_succ_iff_lt_or_eq.1 hi with h' | rfl
    · exact h i h'
    · exact hk
  | some i =>
    refine ⟨by have := h.1; omega, h.2.1, ?_⟩
    intro j h1 h2
    rcases Nat.lt_succ_iff_lt_or_eq.1 h2 with h' | rfl
    · exact h.2.2 j h1 h'
    · exact hk

theorem LastBelow.take {axes : List Axis} {k : Nat} {P : List Char → Prop}
    (hk : P ((axes.map Axis.ctype).getD k [])) : LastBelow axes (k + 1) P (some k) :=
  ⟨by omega, hk, by intro j h1 h2; omega⟩

theorem isL_not {c : List Char} (h : IsL c) : ¬ IsM c ∧ ¬ IsFreq c := by
  unfold IsL at h
  constructor
  · intro h'
    unfold IsM at h'
    simp only [List.mem_cons, List.not_mem_nil, or_false] at h h'
    rcases h with e | e | e <;> rw [e] at h' <;> revert h' <;> decide
  · intro h'
    rw [h'] at h
    revert h; decide

theorem isM_not {c : List Char} (h : IsM c) : ¬ IsL c ∧ ¬ IsFreq c := by
  refine ⟨fun h' => (isL_not h').1 h, ?_⟩
  intro h'
  unfold IsM at h
  rw [h'] at h
  revert h; decide

theorem findAxes_spec (axes : List Axis) :
    LastBelow axes axes.length IsL (findAxes axes).1 ∧ LastBelow axes axes.length IsM (findAxes axes).2.1 ∧
    LastBelow axes axes.length IsFreq (findAxes axes).2.2 := by
  unfold findAxes
  apply forRange_inv (P := fun k (s : Option Nat × Option Nat × Option Nat) =>
    LastBelow axes k IsL s.1 ∧ LastBelow axes k IsM s.2.1 ∧ LastBelow axes k IsFreq s.2.2)
  · exact ⟨fun i hi => by omega, fun i hi => by omega, fun i hi => by omega⟩
  · intro i s hi ⟨h1, h2, h3⟩
    simp only
    by_cases hL : IsL ((axes.map Axis.ctype).getD i [])
    · rw [if_pos (show upper _ ∈ _ from hL)]
      exact ⟨LastBelow.take hL, h2.skip (isL_not hL).1, h3.skip (isL_not hL).2⟩
    · rw [if_neg (show ¬ upper _ ∈ _ from hL)]
      by_cases hM : IsM ((axes.map Axis.ctype).getD i [])
      · rw [if_pos (show upper _ ∈ _ from hM)]
        exact ⟨h1.skip hL, LastBelow.take hM, h3.skip (isM_not hM).2⟩
      · rw [if_neg (show ¬ upper _ ∈ _ from hM)]
        by_cases hF : IsFreq ((axes.map Axis.ctype).getD i [])
        · rw [if_pos (show _ = _ from hF)]
          exact ⟨h1.skip hL, h2.skip hM, LastBelow.take hF⟩
        · rw [if_neg (show ¬ _ = _ from hF)]
          exact ⟨h1.skip hL, h2.skip hM, h3.skip hF⟩

theorem gridOf_axis (h : Header) (n i : Nat) (hc : Complete h n) (hi : i < n) :
    GridOf h (i + 1) ((h.axis (i + 1)).naxis.getD 0)
      (axisGrid h (h.axis (i + 1)) (typeOf h (i + 1)) ((h.axis (i + 1)).naxis.getD 0) ((h.axis (i + 1)).crpix.getD 0 - 1)) := by
  obtain ⟨_, _, h3⟩ := hc.2 (i + 1) (by omega) (by omega)
  refine ⟨?_, ?_, ?_⟩
  · obtain ⟨v, hv⟩ := Option.isSome_iff_exists.1 h3
    rw [hv]; rfl
  · rintro ⟨j, hj1, hj2, hj3⟩ k hk
    unfold axisGrid
    have hirr : ¬ (isIrregular h (typeOf h (i + 1)) ((h.axis (i + 1)).naxis.getD 0) = true) := by
      unfold isIrregular
      rw [List.all_eq_true]
      intro hall
      have := hall (j - 1) (List.mem_range.2 (by omega))
      rw [show j - 1 + 1 = j by omega, hj3] at this
      cases this
    simp only [if_neg hirr]
    unfold fitsCoord deg2rad
    split <;> ring
  · intro hall k hk
    unfold axisGrid
    have hirr : isIrregular h (typeOf h (i + 1)) ((h.axis (i + 1)).naxis.getD 0) = true := by
      unfold isIrregular
      rw [List.all_eq_true]
      intro j hj
      rw [Option.isSome_iff_ne_none]
      exact hall (j + 1) (by omega) (by have := List.mem_range.1 hj; omega)
    simp only [if_pos hirr]
    obtain ⟨v, hv⟩ := Option.ne_none_iff_exists'.1 (hall (k + 1) (by omega) (by omega))
    rw [hv]; rfl

/-- The sign requested by an axis argument: minus if it starts with a minus sign. -/
def signOf : Option (List Char) → ℝ
  | some ('-' :: _) => -1
  | _ => 1

theorem axisSign_eq (a : Option (List Char)) : axisSign a = signOf a := by
  match a with
  | none => rfl
  | some [] => rfl
  | some (c :: t) =>
    unfold axisSign
    by_cases h : c = '-'
    · subst h; simp [signOf]
    · simp only [if_neg h]
      unfold signOf
      split
      · rename_i t' heq
        simp only [Option.some.injEq, List.cons.injEq] at heq
        exact absurd heq.1 h
      · rfl

theorem getD_range_map {α : Type} (n i : Nat) (f : Nat → α) (d : α) (hi : i < n) :
    ((List.range n).map f).getD i d = f i := by
  simp [hi]

/-- **C55** On success the header is complete, the three axes are the last ones of each type (and hence different), numbered
from one, and their grids are the FITS coordinates of the pixels, in radians for degree axes, times the requested signs for
the first two. A grid given point by point is used as it is. -/
theorem C55_grids (h : Header) (la ma : Option (List Char)) (l nl m nm f nf : Nat) (gl gm gf : Nat → ℝ)
    (hok : beamGrids h la ma = .ok ((l, nl, gl), (m, nm, gm), (f, nf, gf))) :
    ∃ n, Complete h n ∧ LastAxis h n IsL l ∧ LastAxis h n IsM m ∧ LastAxis h n IsFreq f ∧ l ≠ m ∧ l ≠ f ∧ m ≠ f ∧
      GridOf h l nl (fun j => gl j * signOf la) ∧ GridOf h m nm (fun j => gm j * signOf ma) ∧ GridOf h f nf gf := by
  unfold beamGrids at hok
  split at hok
  · cases hok
  rename_i axes hax
  obtain ⟨n, hc, haxes⟩ := beamAxes_ok hax
  have hlen : axes.length = n := by rw [haxes]; simp
  have hct : axes.map Axis.ctype = (List.range n).map fun i => typeOf h (i + 1) := by
    rw [haxes, List.map_map]; rfl
  have hna : axes.map Axis.naxis = (List.range n).map fun i => (h.axis (i + 1)).naxis.getD 0 := by
    rw [haxes, List.map_map]; rfl
  have hgr : axes.map Axis.grid = (List.range n).map fun i =>
      axisGrid h (h.axis (i + 1)) (typeOf h (i + 1)) ((h.axis (i + 1)).naxis.getD 0) ((h.axis (i + 1)).crpix.getD 0 - 1) := by
    rw [haxes, List.map_map]; rfl
  have hlast : ∀ (P : List Char → Prop) (i : Nat), LastBelow axes axes.length P (some i) →
      i < n ∧ LastAxis h n P (i + 1) := by
    intro P i ⟨h1, h2, h3⟩
    rw [hlen] at h1 h3
    rw [hct, getD_range_map n i _ _ h1] at h2
    refine ⟨h1, by omega, by omega, h2, ?_⟩
    intro j hj1 hj2
    have := h3 (j - 1) (by omega) (by omega)
    rw [hct, getD_range_map n (j - 1) _ _ (by omega), show j - 1 + 1 = j by omega] at this
    exact this
  obtain ⟨sL, sM, sF⟩ := findAxes_spec axes
  simp only at hok
  split at hok
  · cases hok
  · cases hok
  · cases hok
  rename_i l' m' f' hf
  rw [hf] at sL sM sF
  obtain ⟨bl, tl⟩ := hlast _ _ sL
  obtain ⟨bm, tm⟩ := hlast _ _ sM
  obtain ⟨bf, tf⟩ := hlast _ _ sF
  simp only [Except.ok.injEq, Prod.mk.injEq] at hok
  obtain ⟨⟨rfl, rfl, rfl⟩, ⟨rfl, rfl, rfl⟩, rfl, rfl, rfl⟩ := hok
  have hs2 : ∀ a : Option (List Char), ∀ x : ℝ, x * axisSign a * signOf a = x := by
    intro a x
    rw [axisSign_eq, mul_assoc]
    have : signOf a * signOf a = 1 := by
      unfold signOf; split <;> norm_num
    rw [this, mul_one]
  refine ⟨n, hc, tl, tm, tf, ?_, ?_, ?_, ?_, ?_, ?_⟩
  · rintro e
    have : l' = m' := by omega
    subst this
    exact (isL_not tl.2.2.1).1 tm.2.2.1
  · rintro e
    have : l' = f' := by omega
    subst this
    exact (isL_not tl.2.2.1).2 tf.2.2.1
  · rintro e
    have : m' = f' := by omega
    subst this
    exact (isM_not tm.2.2.1).2 tf.2.2.1
  · simp only [hs2]
    rw [hna, hgr, getD_range_map n _ _ _ bl, getD_range_map n _ _ _ bl]
    exact gridOf_axis h n l' hc bl
  · simp only [hs2]
    rw [hna, hgr, getD_range_map n _ _ _ bm, getD_range_map n _ _ _ bm]
    exact gridOf_axis h n m' hc bm
  · rw [hna, hgr, getD_range_map n _ _ _ bf, getD_range_map n _ _ _ bf]
    exact gridOf_axis h n f' hc bf

/-- **C55** For a complete header, `beam_grids` succeeds exactly when there is an axis of each of the three types; otherwise it
raises `ValueError`. -/
theorem C55_ok_iff (h : Header) (la ma : Option (List Char)) (n : Nat) (hc : Complete h n) :
    ((∃ out, beamGrids h la ma = .ok out) ↔
      (∃ i, 1 ≤ i ∧ i ≤ n ∧ IsL (typeOf h i)) ∧ (∃ i, 1 ≤ i ∧ i ≤ n ∧ IsM (typeOf h i)) ∧
      ∃ i, 1 ≤ i ∧ i ≤ n ∧ IsFreq (typeOf h i)) ∧
    ∀ e, beamGrids h la ma = .error e → e = .valueError := by
  obtain ⟨axes, hax⟩ := beamAxes_of hc
  obtain ⟨n', hc', haxes⟩ := beamAxes_ok hax
  obtain rfl : n' = n := Option.some.inj (hc'.1.symm.trans hc.1)
  have hlen : axes.length = n' := by rw [haxes]; simp
  have hct : axes.map Axis.ctype = (List.range n').map fun i => typeOf h (i + 1) := by
    rw [haxes, List.map_map]; rfl
  have hnone : ∀ P : List Char → Prop, LastBelow axes axes.length P none → ¬ ∃ i, 1 ≤ i ∧ i ≤ n' ∧ P (typeOf h i) := by
    rintro P hP ⟨i, h1, h2, h3⟩
    have := hP (i - 1) (by omega)
    rw [hct, getD_range_map n' (i - 1) _ _ (by omega), show i - 1 + 1 = i by omega] at this
    exact this h3
  have hsome : ∀ (P : List Char → Prop) (i : Nat), LastBelow axes axes.length P (some i) →
      ∃ i, 1 ≤ i ∧ i ≤ n' ∧ P (typeOf h i) := by
    intro P i ⟨h1, h2, _⟩
    rw [hct, getD_range_map n' i _ _ (by omega)] at h2
    exact ⟨i + 1, by omega, by omega, h2⟩
  obtain ⟨sL, sM, sF⟩ := findAxes_spec axes
  unfold beamGrids
  rw [hax]
  simp only
  rcases hf : findAxes axes with ⟨ol, om, of⟩
  rw [hf] at sL sM sF
  have nope : ∀ {A B : Prop}, ¬ B → ((∃ out, (Except.error PyErr.valueError : Except PyErr
      ((Nat × Nat × (Nat → ℝ)) × (Nat × Nat × (Nat → ℝ)) × (Nat × Nat × (Nat → ℝ)))) = .ok out) ↔ B) := by
    intro _ B hB
    exact ⟨(by rintro ⟨_, h⟩; cases h), fun h => absurd h hB⟩
  cases ol with
  | none => exact ⟨nope (A := True) fun hh => hnone _ sL hh.1, by intro e he; cases he; rfl⟩
  | some l =>
    cases om with
    | none => exact ⟨nope (A := True) fun hh => hnone _ sM hh.2.1, by intro e he; cases he; rfl⟩
    | some m =>
      cases of with
      | none => exact ⟨nope (A := True) fun hh => hnone _ sF hh.2.2, by intro e he; cases he; rfl⟩
      | some f =>
        exact ⟨⟨fun _ => ⟨hsome _ _ sL, hsome _ _ sM, hsome _ _ sF⟩, fun _ => ⟨_, rfl⟩⟩, by intro e he; cases he⟩

/-- **C55** A leading minus sign in the axis arguments negates the grids and changes nothing else. -/
theorem C55_sign (h : Header) (a b c d : List Char) (hc : c.head? ≠ some '-') (hd : d.head? ≠ some '-')
    (l nl m nm f nf : Nat) (gl gm gf : Nat → ℝ)
    (hok : beamGrids h (some c) (some d) = .ok ((l, nl, gl), (m, nm, gm), (f, nf, gf))) :
    beamGrids h (some ('-' :: a)) (some ('-' :: b)) =
      .ok ((l, nl, fun j => -gl j), (m, nm, fun j => -gm j), (f, nf, gf)) := by
  have hp : ∀ s : List Char, s.head? ≠ some '-' → axisSign (some s) = 1 := by
    intro s hs
    cases s with
    | nil => rfl
    | cons x s =>
      simp only [List.head?_cons, ne_eq, Option.some.injEq] at hs
      simp [axisSign, hs]
  unfold beamGrids at hok ⊢
  cases hax : beamAxes h with
  | error e => rw [hax] at hok; cases hok
  | ok axes =>
  rw [hax] at hok
  simp only at hok ⊢
  rcases hf : findAxes axes with ⟨ol, om, of⟩
  rw [hf] at hok
  cases ol with
  | none => cases hok
  | some l' =>
    cases om with
    | none => cases hok
    | some m' =>
      cases of with
      | none => cases hok
      | some f' =>
        simp only [hp c hc, hp d hd, Except.ok.injEq, Prod.mk.injEq] at hok
        obtain ⟨⟨rfl, rfl, rfl⟩, ⟨rfl, rfl, rfl⟩, rfl, rfl, rfl⟩ := hok
        simp [axisSign]

/-- A header with a degree axis of three pixels, a radian axis and a frequency axis with given points. -/
noncomputable def exampleHeader : Header where
  naxis := some 3
  axis n := if n = 1 then ⟨some 3, some "X".toList, none, some 2, some 5, some "deg".toList⟩
    else if n = 2 then ⟨some 2, some "Y ".toList, some 1, some 1, some 3, none⟩
    else ⟨some 2, some "FREQ".toList, none, some 1, none, none⟩
  irregular c j := if c = "FREQ".toList then (if j = 1 then some 10 else some 17) else none

/-- Non-vacuity: the example header is complete and has the three axes. -/
example : Complete exampleHeader 3 ∧ IsL (typeOf exampleHeader 1) ∧ IsM (typeOf exampleHeader 2) ∧
    IsFreq (typeOf exampleHeader 3) := by
  refine ⟨⟨rfl, ?_⟩, ?_, ?_, ?_⟩
  · intro i h1 h2
    obtain rfl | rfl | rfl : i = 1 ∨ i = 2 ∨ i = 3 := by omega
    all_goals simp [exampleHeader]
  all_goals simp only [IsL, IsM, IsFreq, typeOf, exampleHeader, if_true]
  all_goals decide

/-! ### Specification of file name schemas -/

/-- The parts of a schema: an ordinary character, `$$`, `$name` and `$(name)`. -/
inductive Seg
  | char (c : Char)
  | dollar
  | named (name : List Char)
  | braced (name : List Char)

/-- The text of a part. -/
def Seg.text : Seg → List Char
  | .char c => [c]
  | .dollar => ['$', '$']
  | .named n => '$' :: n
  | .braced n => '$' :: '(' :: (n ++ [')'])

/-- The text of a schema. -/
def schemaText (l : List Seg) : List Char := l.flatMap Seg.text

/-- A name: a letter or underscore followed by letters, digits and underscores. -/
def IsName (n : List Char) : Prop := n.head?.any idStart = true ∧ ∀ c ∈ n, idChar c = true

/-- Parts in an order in which the text is read back as these parts: a name without parentheses must not be followed by a
character that could belong to it. -/
def WellFormed : List Seg → Prop
  | [] => True
  | .char c :: l => c ≠ '$' ∧ WellFormed l
  | .dollar :: l => WellFormed l
  | .named n :: l => IsName n ∧ (∀ c, (schemaText l).head? = some c → idChar c = false) ∧ WellFormed l
  | .braced n :: l => IsName n ∧ WellFormed l

/-- The text a part is replaced with. -/
def Seg.value (env : List Char → Option (List Char)) : Seg → Option (List Char)
  | .char c => some [c]
  | .dollar => some ['$']
  | .named n => env n
  | .braced n => env n

/-- A schema with all variables replaced. -/
def fill (env : List Char → Option (List Char)) : List Seg → Option (List Char)
  | [] => some []
  | s :: l => match s.value env, fill env l with
    | some a, some b => some (a ++ b)
    | _, _ => none

/-! ### C56 -/

theorem idStart_ne {c : Char} (h : idStart c = true) : c ≠ '$' ∧ c ≠ '(' := by
  constructor <;> rintro rfl <;> revert h <;> decide

theorem span_name {n s : List Char} (hn : ∀ c ∈ n, idChar c = true) (hs : ∀ c, s.head? = some c → idChar c = false) :
    (n ++ s).takeWhile idChar = n ∧ (n ++ s).dropWhile idChar = s := by
  induction n with
  | nil =>
    cases s with
    | nil => exact ⟨rfl, rfl⟩
    | cons c s => simp [hs c rfl]
  | cons c n ih =>
    simp only [List.mem_cons, forall_eq_or_imp] at hn
    simp [hn.1, ih hn.2]

theorem substitute_text (env : List Char → Option (List Char)) (l : List Seg) (hl : WellFormed l) (n : Nat)
    (hn : (schemaText l).length < n) :
    substitute env n (schemaText l) = match fill env l with
      | some r => .ok r
      | none => .error .keyError := by
  induction l generalizing n with
  | nil =>
    obtain ⟨k, rfl⟩ : ∃ k, n = k + 1 := ⟨n - 1, by omega⟩
    rfl
  | cons s l ih =>
    obtain ⟨k, rfl⟩ : ∃ k, n = k + 1 := ⟨n - 1, by omega⟩
    have hx : schemaText (s :: l) = s.text ++ schemaText l := rfl
    rw [hx, List.length_append] at hn
    rw [hx]
    cases s with
    | char c =>
      have hk := ih hl.2 k (by simp [Seg.text] at hn; omega)
      simp only [Seg.text, List.singleton_append, substitute]
      rw [if_pos hl.1, hk]
      simp only [fill, Seg.value]
      cases fill env l <;> rfl
    | dollar =>
      have hk := ih hl k (by simp [Seg.text] at hn; omega)
      simp only [Seg.text, List.cons_append, List.nil_append, substitute]
      rw [if_neg (by simp), if_pos trivial, hk]
      simp only [fill, Seg.value]
      cases fill env l <;> rfl
    | named m =>
      obtain ⟨hm, hnext, hl'⟩ := hl
      have hk := ih hl' k (by simp [Seg.text] at hn; omega)
      obtain ⟨e1, e2⟩ := span_name hm.2 hnext
      cases m with
      | nil => exact absurd hm.1 (by simp)
      | cons d m =>
        have hd : idStart d = true := by simpa using hm.1
        simp only [Seg.text, List.cons_append, substitute]
        rw [if_neg (by simp), if_neg (idStart_ne hd).1, if_pos hd]
        rw [List.cons_append] at e1 e2
        rw [e1, e2, hk]
        simp only [fill, Seg.value]
        cases env (d :: m) with
        | none => rfl
        | some v => cases fill env l <;> rfl
    | braced m =>
      obtain ⟨hm, hl'⟩ := hl
      have hk := ih hl' k (by simp [Seg.text] at hn; omega)
      have e := span_name (s := ')' :: schemaText l) hm.2 (by simp; decide)
      cases m with
      | nil => exact absurd hm.1 (by simp)
      | cons d m =>
        have hd : idStart d = true := by simpa using hm.1
        have ex : Seg.text (.braced (d :: m)) ++ schemaText l = '$' :: '(' :: ((d :: m) ++ ')' :: schemaText l) := by
          simp [Seg.text]
        rw [ex]
        simp only [substitute]
        rw [if_neg (by simp), if_neg (by decide), if_neg (by decide), if_pos trivial,
          if_pos (by simpa using hd), e.1, e.2]
        simp only [if_true]
        rw [hk]
        simp only [fill, Seg.value]
        cases env (d :: m) with
        | none => rfl
        | some v => cases fill env l <;> rfl

/-- Reading a schema: any text that is accepted is the text of well-formed parts. -/
theorem substitute_parts (env : List Char → Option (List Char)) (n : Nat) (s r : List Char) (hn : s.length < n)
    (h : substitute env n s = .ok r) : ∃ l, WellFormed l ∧ schemaText l = s := by
  induction n generalizing s r with
  | zero => omega
  | succ n ih =>
    have hmap : ∀ {t r : List Char} {f : List Char → List Char}, (substitute env n t).map f = .ok r →
        ∃ r', substitute env n t = .ok r' := by
      intro t r f h
      cases hs : substitute env n t with
      | error e => rw [hs] at h; cases h
      | ok r' => exact ⟨r', rfl⟩
    cases s with
    | nil => exact ⟨[], trivial, rfl⟩
    | cons c t =>
      simp only [substitute] at h
      simp only [List.length_cons] at hn
      by_cases hc : c ≠ '$'
      · rw [if_pos hc] at h
        obtain ⟨r', hr⟩ := hmap h
        obtain ⟨l, h1, h2⟩ := ih t r' (by omega) hr
        exact ⟨.char c :: l, ⟨hc, h1⟩, by rw [← h2]; rfl⟩
      · rw [if_neg hc] at h
        push Not at hc
        subst hc
        cases t with
        | nil => cases h
        | cons d t' =>
          simp only at h
          simp only [List.length_cons] at hn
          have hname : ∀ u : List Char, u.head?.any idStart = true → IsName (u.takeWhile idChar) := by
            intro u hu
            refine ⟨?_, fun x hx => List.mem_takeWhile_imp hx⟩
            cases u with
            | nil => cases hu
            | cons x u =>
              have hx : idStart x = true := by simpa using hu
              have hxc : idChar x = true := by simp [idChar, hx]
              rw [List.takeWhile_cons, if_pos hxc]
              simpa using hx
          by_cases hd : d = '$'
          · subst hd
            rw [if_pos rfl] at h
            obtain ⟨r', hr⟩ := hmap h
            obtain ⟨l, h1, h2⟩ := ih t' r' (by omega) hr
            exact ⟨.dollar :: l, h1, by rw [← h2]; rfl⟩
          · rw [if_neg hd] at h
            by_cases hs : idStart d = true
            · rw [if_pos hs] at h
              have hdc : idChar d = true := by simp [idChar, hs]
              have hlen : ((d :: t').dropWhile idChar).length ≤ t'.length := by
                rw [List.dropWhile_cons, if_pos hdc]
                exact (List.dropWhile_sublist _).length_le
              cases hv : env ((d :: t').takeWhile idChar) with
              | none => rw [hv] at h; cases h
              | some v =>
                rw [hv] at h
                obtain ⟨r', hr⟩ := hmap h
                obtain ⟨l, h1, h2⟩ := ih _ r' (by omega) hr
                refine ⟨.named ((d :: t').takeWhile idChar) :: l, ⟨hname _ (by simpa using hs), ?_, h1⟩, ?_⟩
                · intro x hx
                  rw [h2] at hx
                  have := List.head?_dropWhile_not idChar (d :: t')
                  rw [hx] at this
                  simpa using this
                · show '$' :: (d :: t').takeWhile idChar ++ schemaText l = _
                  rw [h2, List.cons_append, List.takeWhile_append_dropWhile]
            · rw [if_neg hs] at h
              by_cases hp : d = '('
              · subst hp
                rw [if_pos rfl] at h
                by_cases hst : t'.head?.any idStart = true
                · rw [if_pos hst] at h
                  cases hdw : t'.dropWhile idChar with
                  | nil => rw [hdw] at h; cases h
                  | cons e t'' =>
                    rw [hdw] at h
                    simp only at h
                    by_cases he : e = ')'
                    · subst he
                      rw [if_pos rfl] at h
                      cases hv : env (t'.takeWhile idChar) with
                      | none => rw [hv] at h; cases h
                      | some v =>
                        rw [hv] at h
                        obtain ⟨r', hr⟩ := hmap h
                        have hlen : t''.length ≤ t'.length := by
                          have := (List.dropWhile_sublist (l := t') idChar).length_le
                          rw [hdw, List.length_cons] at this
                          omega
                        obtain ⟨l, h1, h2⟩ := ih t'' r' (by omega) hr
                        refine ⟨.braced (t'.takeWhile idChar) :: l, ⟨hname _ hst, h1⟩, ?_⟩
                        show '$' :: '(' :: (t'.takeWhile idChar ++ [')']) ++ schemaText l = _
                        rw [h2]
                        have := List.takeWhile_append_dropWhile (p := idChar) (l := t')
                        rw [hdw] at this
                        simp [this]
                    · rw [if_neg he] at h; cases h
                · rw [if_neg hst] at h; cases h
              · rw [if_neg hp] at h; cases h

/-- The variables of a schema: the correlation and the component, in lower and upper case. -/
def fileVars (corr reim name : List Char) : Option (List Char) :=
  match String.ofList name with
  | "corr" => some (lower corr)
  | "CORR" => some (upper corr)
  | "reim" => some (lower reim)
  | "REIM" => some (upper reim)
  | _ => none

theorem fileEnv_eq (corr reim name : List Char) : fileEnv corr reim name = fileVars corr reim name := by
  unfold fileEnv fileVars
  have key : ∀ s : String, (String.ofList name = s) ↔ name = s.toList := by
    intro s
    constructor
    · rintro rfl; simp
    · rintro rfl; simp
  split_ifs with h1 h2 h3 h4
  · subst h1; rfl
  · subst h2; rfl
  · subst h3; rfl
  · subst h4; rfl
  · split
    · rename_i h; exact absurd ((key _).1 h) h1
    · rename_i h; exact absurd ((key _).1 h) h2
    · rename_i h; exact absurd ((key _).1 h) h3
    · rename_i h; exact absurd ((key _).1 h) h4
    · rfl

/-- **C56** A schema is accepted for a correlation exactly when it consists of ordinary characters, `$$`, and the names of the
four variables, with or without parentheses; the result is the name of the real and the name of the imaginary file, with the
parts replaced. Anything else raises `ValueError`. -/
theorem C56_filename (corr schema : List Char) :
    (∀ re im, reImFilenames corr schema = .ok [re, im] ↔
      ∃ parts, WellFormed parts ∧ schemaText parts = schema ∧
        fill (fileVars corr "re".toList) parts = some re ∧ fill (fileVars corr "im".toList) parts = some im) ∧
    (∀ out, reImFilenames corr schema = .ok out → ∃ re im, out = [re, im]) ∧
    (∀ e, reImFilenames corr schema = .error e → e = .valueError) := by
  have e1 : fileEnv corr "re".toList = fileVars corr "re".toList := funext fun n => fileEnv_eq _ _ n
  have e2 : fileEnv corr "im".toList = fileVars corr "im".toList := funext fun n => fileEnv_eq _ _ n
  unfold reImFilenames
  rw [e1, e2]
  refine ⟨?_, ?_, ?_⟩
  · intro re im
    constructor
    · intro h
      split at h
      · cases h
      rename_i re' hre
      split at h
      · cases h
      rename_i im' him
      simp only [Except.ok.injEq, List.cons.injEq, and_true] at h
      obtain ⟨rfl, rfl⟩ := h
      obtain ⟨l, hl, rfl⟩ := substitute_parts _ _ _ _ (by omega) hre
      refine ⟨l, hl, rfl, ?_, ?_⟩
      · rw [substitute_text _ l hl _ (by omega)] at hre
        split at hre
        · simp only [Except.ok.injEq] at hre; subst hre; assumption
        · cases hre
      · rw [substitute_text _ l hl _ (by omega)] at him
        split at him
        · simp only [Except.ok.injEq] at him; subst him; assumption
        · cases him
    · rintro ⟨l, hl, rfl, h1, h2⟩
      rw [substitute_text _ l hl _ (by omega), substitute_text _ l hl _ (by omega), h1, h2]
  · intro out h
    split at h
    · cases h
    split at h
    · cases h
    simp only [Except.ok.injEq] at h
    exact ⟨_, _, h.symm⟩
  · intro e h
    split at h
    · cases h; rfl
    split at h
    · cases h; rfl
    · cases h

/-- The lower-case name of a correlation id. -/
def corrName (t : Int) : Option (List Char) :=
  if t < 0 then none else (stokesIdMap.lookup t.toNat).map fun s => lower s.toList

theorem corrNames_eq (ts : List Int) :
    corrNames ts = match ts.mapM corrName with
      | some l => .ok l
      | none => .error .valueError := by
  induction ts with
  | nil => rfl
  | cons t ts ih =>
    unfold corrNames
    rw [ih, List.mapM_cons]
    generalize ts.mapM corrName = r
    unfold corrName
    by_cases h : t < 0
    · simp [h]
    · simp only [h, if_false]
      cases stokesIdMap.lookup t.toNat with
      | none => rfl
      | some s => cases r <;> rfl

theorem filePairs_spec (schema : List Char) (names : List (List Char)) :
    (∀ l, filePairs schema names = .ok l → l.map Prod.fst = names ∧ ∀ p ∈ l, reImFilenames p.1 schema = .ok p.2) ∧
    ((∃ e, filePairs schema names = .error e) → filePairs schema names = .error .valueError ∧
      ∃ n ∈ names, ∃ e, reImFilenames n schema = .error e) ∧
    ((∀ n ∈ names, ∃ f, reImFilenames n schema = .ok f) → ∃ l, filePairs schema names = .ok l) := by
  induction names with
  | nil =>
    refine ⟨?_, ?_, fun _ => ⟨_, rfl⟩⟩
    · rintro l h; cases h; simp
    · rintro ⟨e, h⟩; cases h
  | cons c rest ih =>
    obtain ⟨i1, i2, i3⟩ := ih
    unfold filePairs
    cases hf : reImFilenames c schema with
    | error e =>
      have := (C56_filename c schema).2.2 e hf
      subst this
      refine ⟨(by rintro l h; cases h), fun _ => ⟨rfl, c, List.mem_cons_self, _, hf⟩, ?_⟩
      intro h
      obtain ⟨f, h⟩ := h c List.mem_cons_self
      rw [hf] at h; cases h
    | ok f =>
      cases hr : filePairs schema rest with
      | error e =>
        obtain ⟨h1, n, hn, h2⟩ := i2 ⟨e, hr⟩
        rw [hr] at h1
        refine ⟨(by rintro l h; cases h), fun _ => ⟨h1, n, List.mem_cons_of_mem _ hn, h2⟩, ?_⟩
        intro h
        obtain ⟨l, h⟩ := i3 fun n hn => h n (List.mem_cons_of_mem _ hn)
        rw [hr] at h; cases h
      | ok l =>
        obtain ⟨h1, h2⟩ := i1 l hr
        refine ⟨?_, (by rintro ⟨e, h⟩; cases h), fun _ => ⟨_, rfl⟩⟩
        rintro l' h
        simp only [Except.ok.injEq] at h
        subst h
        refine ⟨by simp [h1], ?_⟩
        intro p hp
        rcases List.mem_cons.1 hp with rfl | hp
        · exact hf
        · exact h2 p hp

theorem lookup_mem {κ υ : Type} [DecidableEq κ] {l : List (κ × υ)} {k : κ} {v : υ} (h : l.lookup k = some v) : (k, v) ∈ l := by
  induction l with
  | nil => cases h
  | cons p l ih =>
    rw [List.lookup_cons] at h
    by_cases hk : k = p.1
    · subst hk
      simp only [beq_self_eq_true, Option.some.injEq] at h
      subst h
      exact List.mem_cons_self
    · have : (k == p.1) = false := by simpa using hk
      rw [this] at h
      exact List.mem_cons_of_mem _ (ih h)

theorem lookup_isSome {κ υ : Type} [DecidableEq κ] {l : List (κ × υ)} {k : κ} (h : k ∈ l.map Prod.fst) :
    ∃ v, l.lookup k = some v := by
  induction l with
  | nil => simp at h
  | cons p l ih =>
    rw [List.lookup_cons]
    by_cases hk : k = p.1
    · subst hk; exact ⟨p.2, by simp⟩
    · have : (k == p.1) = false := by simpa using hk
      rw [this]
      rw [List.map_cons, List.mem_cons] at h
      exact ih (h.resolve_left hk)

/-- **C56** `beam_filenames` returns a dictionary with one entry per distinct correlation, under its lower-case name, holding
the names of the real and the imaginary file of that correlation. -/
theorem C56_dictionary (schema : List Char) (ts : List Int) (out : List (List Char × List (List Char)))
    (h : beamFilenames schema ts = .ok out) :
    ∃ names, ts.mapM corrName = some names ∧ (out.map Prod.fst).Nodup ∧ (∀ k, k ∈ out.map Prod.fst ↔ k ∈ names) ∧
      ∀ n ∈ names, ∃ re im, (n, [re, im]) ∈ out ∧ reImFilenames n schema = .ok [re, im] := by
  unfold beamFilenames at h
  rw [corrNames_eq] at h
  cases hn : ts.mapM corrName with
  | none => rw [hn] at h; cases h
  | some names =>
    rw [hn] at h
    simp only at h
    cases hp : filePairs schema names with
    | error e => rw [hp] at h; cases h
    | ok pairs =>
      rw [hp] at h
      simp only [Except.ok.injEq] at h
      subst h
      obtain ⟨h1, h2⟩ := (filePairs_spec schema names).1 pairs hp
      obtain ⟨d1, d2, d3⟩ := dictOf_spec pairs
      rw [h1] at d2
      refine ⟨names, rfl, d1, d2, ?_⟩
      intro n hn'
      obtain ⟨v, hv⟩ := lookup_isSome ((d2 n).2 hn')
      have hm : (n, v) ∈ pairs := by
        rw [d3] at hv
        exact List.mem_reverse.1 (lookup_mem hv)
      obtain ⟨re, im, rfl⟩ := (C56_filename n schema).2.1 v (h2 _ hm)
      exact ⟨re, im, lookup_mem hv, h2 _ hm⟩

/-- **C56** It fails, with `ValueError`, exactly when a correlation id is not in the table or the schema is not accepted for
one of the correlations. -/
theorem C56_errors (schema : List Char) (ts : List Int) :
    ((∃ out, beamFilenames schema ts = .ok out) ↔
      ∃ names, ts.mapM corrName = some names ∧ ∀ n ∈ names, ∃ f, reImFilenames n schema = .ok f) ∧
    ∀ e, beamFilenames schema ts = .error e → e = .valueError := by
  unfold beamFilenames
  rw [corrNames_eq]
  cases hn : ts.mapM corrName with
  | none =>
    refine ⟨⟨(by rintro ⟨_, h⟩; cases h), by rintro ⟨_, h, _⟩; cases h⟩, ?_⟩
    rintro e h; cases h; rfl
  | some names =>
    simp only
    obtain ⟨f1, f2, f3⟩ := filePairs_spec schema names
    cases hp : filePairs schema names with
    | error e =>
      obtain ⟨h1, n, hn', e', h2⟩ := f2 ⟨e, hp⟩
      refine ⟨⟨(by rintro ⟨_, h⟩; cases h), ?_⟩, ?_⟩
      · rintro ⟨names', h, hall⟩
        simp only [Option.some.injEq] at h
        subst h
        obtain ⟨f, hf⟩ := hall n hn'
        rw [hf] at h2; cases h2
      · rintro e'' h
        rw [hp] at h1
        simp only [Except.error.injEq] at h h1
        rw [← h, h1]
    | ok pairs =>
      refine ⟨⟨fun _ => ⟨names, rfl, ?_⟩, fun _ => ⟨_, rfl⟩⟩, by rintro e h; cases h⟩
      intro n hn'
      obtain ⟨h1, h2⟩ := f1 pairs hp
      rw [← h1] at hn'
      obtain ⟨p, hp', rfl⟩ := List.mem_map.1 hn'
      exact ⟨_, h2 p hp'⟩

/-- Non-vacuity: a schema with a doubled delimiter and both kinds of names. -/
example : WellFormed [.char 'b', .dollar, .braced "corr".toList, .char '_', .named "REIM".toList, .char '.', .char 'f'] ∧
    schemaText [.char 'b', .dollar, .braced "corr".toList, .char '_', .named "REIM".toList, .char '.', .char 'f'] =
      "b$$$(corr)_$REIM.f".toList := by
  refine ⟨⟨by decide, ⟨by decide, by decide⟩, by decide, ⟨by decide, by decide⟩, ?_, by decide, by decide, trivial⟩, rfl⟩
  intro c hc
  simp [schemaText, Seg.text] at hc
  subst hc
  decide

/-- Non-vacuity: the file names of two correlations. -/
example : beamFilenames "b$$$(corr)_$REIM.f".toList [9, 12, 9] =
    .ok [("xx".toList, ["b$xx_RE.f".toList, "b$xx_IM.f".toList]), ("yy".toList, ["b$yy_RE.f".toList, "b$yy_IM.f".toList])] := by
  decide +kernel

end Verif.Util.Beams
