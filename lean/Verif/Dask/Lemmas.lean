/-
Unification of chunks always succeeds on arrays whose axes of the same label have the same extent, and blocks of
single-chunk contracted axes are lists of one element.
-/
import Verif.Dask.Spec
import Mathlib.Data.List.Dedup
import Mathlib.Tactic.Linarith

set_option autoImplicit false

namespace Verif.Dask

variable {α β : Type*}

theorem GoodChunks.ne_nil {c : List Nat} (h : GoodChunks c) : c ≠ [] := by
  rcases h with h | h
  · simp [h]
  · exact h.1

theorem GoodChunks.small {c : List Nat} (h : GoodChunks c) (h1 : c.sum ≤ 1) : c = [c.sum] := by
  rcases h with h | ⟨h, hp⟩
  · simp [h]
  · match c, h with
    | [a], _ => simp
    | a :: b :: l, _ =>
      have := hp a (by simp); have := hp b (by simp)
      simp only [List.sum_cons] at h1
      omega

theorem GoodChunks.pos_of_long {c : List Nat} (h : GoodChunks c) (h1 : 1 < c.length) : ∀ x ∈ c, 0 < x := by
  rcases h with h | h
  · simp [h] at h1
  · exact h.2

private theorem minHead_le : ∀ (cs : List (List Nat)), ∀ c ∈ cs, minHead cs ≤ c.headD 0 := by
  intro cs
  induction cs with
  | nil => simp
  | cons c cs ih =>
    intro d hd
    cases cs with
    | nil => simp at hd; simp [minHead, hd]
    | cons e es =>
      rw [minHead]
      · rcases List.mem_cons.1 hd with rfl | hd
        · exact min_le_left _ _
        · exact (min_le_right _ _).trans (ih d hd)
      · simp

private theorem minHead_mem : ∀ (cs : List (List Nat)), cs ≠ [] → ∃ c ∈ cs, minHead cs = c.headD 0 := by
  intro cs
  induction cs with
  | nil => simp
  | cons c cs ih =>
    intro _
    cases cs with
    | nil => exact ⟨c, by simp, by simp [minHead]⟩
    | cons e es =>
      rw [minHead]
      · obtain ⟨d, hd, h⟩ := ih (by simp)
        rcases min_choice (c.headD 0) (minHead (e :: es)) with h1 | h1
        · exact ⟨c, by simp, h1⟩
        · exact ⟨d, by simp [hd], by rw [h1, h]⟩
      · simp

private theorem dropFront_sum {m : Nat} {c : List Nat} (h : m ≤ c.headD 0) : (dropFront m c).sum = c.sum - m := by
  cases c with
  | nil => simp [dropFront]
  | cons a l =>
    simp only [List.headD_cons] at h
    simp only [dropFront]
    split_ifs with h1
    · subst h1; simp
    · simp only [List.sum_cons]; omega

private theorem dropFront_pos {m : Nat} {c : List Nat} (h : m ≤ c.headD 0) (hp : ∀ x ∈ c, 0 < x) :
    ∀ x ∈ dropFront m c, 0 < x := by
  cases c with
  | nil => simp [dropFront]
  | cons a l =>
    simp only [List.headD_cons] at h
    simp only [dropFront]
    split_ifs with h1
    · intro x hx; exact hp x (by simp [hx])
    · intro x hx
      rcases List.mem_cons.1 hx with rfl | hx
      · omega
      · exact hp x (by simp [hx])

private theorem dropFront_length {m : Nat} {c : List Nat} : (dropFront m c).length ≤ c.length := by
  cases c with
  | nil => simp [dropFront]
  | cons a l => simp only [dropFront]; split_ifs <;> simp

private theorem lengths_le (m : Nat) (cs : List (List Nat)) :
    ((cs.map (dropFront m)).map List.length).sum ≤ (cs.map List.length).sum := by
  induction cs with
  | nil => simp
  | cons c cs ih => simpa using Nat.add_le_add dropFront_length ih

private theorem lengths_lt (m : Nat) (cs : List (List Nat)) (h : ∃ c ∈ cs, m = c.headD 0 ∧ c ≠ []) :
    ((cs.map (dropFront m)).map List.length).sum < (cs.map List.length).sum := by
  induction cs with
  | nil => simp at h
  | cons c cs ih =>
    obtain ⟨d, hd, h1, h2⟩ := h
    simp only [List.map_cons, List.sum_cons]
    rcases List.mem_cons.1 hd with rfl | hd
    · have : (dropFront m d).length < d.length := by
        cases d with
        | nil => exact absurd rfl h2
        | cons a l => simp at h1; simp [dropFront, h1]
      have := lengths_le m cs
      omega
    · have := ih ⟨d, hd, h1, h2⟩
      have := @dropFront_length m c
      omega

private theorem mergeChunks_spec : ∀ (fuel left : Nat) (cs : List (List Nat)), cs ≠ [] →
    (∀ c ∈ cs, c.sum = left ∧ ∀ x ∈ c, 0 < x) → (cs.map List.length).sum ≤ fuel →
    (mergeChunks fuel left cs).sum = left ∧ (∀ x ∈ mergeChunks fuel left cs, 0 < x) ∧
      (0 < left → mergeChunks fuel left cs ≠ []) := by
  intro fuel
  induction fuel with
  | zero =>
    intro left cs hne h hf
    have h0 : left = 0 := by
      cases cs with
      | nil => exact absurd rfl hne
      | cons c cs =>
        simp only [List.map_cons, List.sum_cons] at hf
        have : c = [] := List.length_eq_zero_iff.1 (by omega)
        have := (h c (by simp)).1
        simp_all
    simp [mergeChunks, h0]
  | succ fuel ih =>
    intro left cs hne h hf
    rw [mergeChunks]
    by_cases hl : 0 < left
    · rw [if_pos hl]
      have hcne : ∀ c ∈ cs, c ≠ [] := fun c hc h0 => by
        have := (h c hc).1
        rw [h0] at this
        simp at this; omega
      obtain ⟨c0, hc0, hm⟩ := minHead_mem cs hne
      have hle := minHead_le cs
      have hmpos : 0 < minHead cs := by
        rw [hm]
        have hn := hcne c0 hc0
        cases c0 with
        | nil => exact absurd rfl hn
        | cons a l => exact (h _ hc0).2 a (by simp)
      have hmleft : minHead cs ≤ left := by
        rw [hm, ← (h c0 hc0).1]
        cases c0 with
        | nil => simp
        | cons a l => simp
      have key := ih (left - minHead cs) (cs.map (dropFront (minHead cs))) (by simpa using hne)
        (by
          intro c hc
          obtain ⟨d, hd, rfl⟩ := List.mem_map.1 hc
          exact ⟨by rw [dropFront_sum (hle d hd), (h d hd).1], dropFront_pos (hle d hd) (h d hd).2⟩)
        (by
          have := lengths_lt (minHead cs) cs ⟨c0, hc0, hm, hcne c0 hc0⟩
          omega)
      refine ⟨?_, ?_, by simp⟩
      · simp only [List.sum_cons, key.1]; omega
      · intro x hx
        rcases List.mem_cons.1 hx with rfl | hx
        · exact hmpos
        · exact key.2.1 x hx
    · rw [if_neg hl]
      have : left = 0 := by omega
      simp [this]

private theorem maxFirst_mem : ∀ (cs : List (List Nat)), cs ≠ [] → maxFirst cs ∈ cs := by
  intro cs h
  cases cs with
  | nil => exact absurd rfl h
  | cons c cs =>
    simp only [maxFirst]
    clear h
    induction cs generalizing c with
    | nil => simp
    | cons d ds ih =>
      simp only [List.foldl_cons]
      split_ifs
      · have := ih d; simp only [List.mem_cons] at this ⊢; tauto
      · have := ih c; simp only [List.mem_cons] at this ⊢; tauto

private theorem commonBlockdim_spec (dims : List (List Nat)) (n : Nat) (hne : dims ≠ [])
    (h : ∀ d ∈ dims, GoodChunks d ∧ d.sum = n) :
    ∃ c, commonBlockdim dims = .ok c ∧ GoodChunks c ∧ c.sum = n ∧ ((∀ d ∈ dims, d.length = 1) → c.length = 1) := by
  unfold commonBlockdim
  have hmem : ∀ d ∈ dims.filter (fun d => decide (1 < d.length)), d ∈ dims ∧ 1 < d.length := by
    intro d hd; simpa using hd
  split
  · have hm := maxFirst_mem dims hne
    exact ⟨_, rfl, (h _ hm).1, (h _ hm).2, fun h1 => h1 _ hm⟩
  · rename_i d hd
    have hm := hmem d (by rw [hd]; simp)
    exact ⟨d, rfl, (h d hm.1).1, (h d hm.1).2, fun h1 => h1 d hm.1⟩
  · rename_i d e rest hd
    rw [hd] at hmem
    have hall : ((e :: rest).all fun x => decide (x.sum = d.sum)) = true := by
      rw [List.all_eq_true]
      intro x hx
      have h1 := hmem x (List.mem_cons_of_mem _ hx)
      have h2 := hmem d (by simp)
      simp [(h x h1.1).2, (h d h2.1).2]
    rw [if_pos hall]
    have hdm := hmem d (by simp)
    have hdsum := (h d hdm.1).2
    have hpos : 0 < d.sum := by
      have := (h d hdm.1).1.pos_of_long hdm.2
      cases d with
      | nil => simp at hdm
      | cons a l => have := this a (by simp); simp; omega
    have key := mergeChunks_spec ((d :: e :: rest).map List.length).sum d.sum (d :: e :: rest) (by simp)
      (by
        intro c hc
        have h1 := hmem c hc
        exact ⟨by rw [(h c h1.1).2, hdsum], (h c h1.1).1.pos_of_long h1.2⟩) le_rfl
    refine ⟨_, rfl, Or.inr ⟨key.2.2 hpos, key.2.1⟩, by rw [key.1, hdsum], fun h1 => ?_⟩
    have := h1 d hdm.1
    omega

theorem consolidate_spec (dims : List (List Nat)) (n : Nat) (hne : dims ≠ [])
    (h : ∀ d ∈ dims, GoodChunks d ∧ d.sum = n) :
    ∃ c, consolidate dims = .ok c ∧ GoodChunks c ∧ c.sum = n ∧ ((∀ d ∈ dims, d.length = 1) → c.length = 1) := by
  unfold consolidate
  dsimp only
  have hd : ∀ d ∈ dims.dedup, GoodChunks d ∧ d.sum = n := fun d hd => h d (List.mem_dedup.1 hd)
  split_ifs with h1
  · have hmem : ∀ d ∈ dims.dedup.filter (fun d => decide (d ≠ [1])), d ∈ dims := by
      intro d hd; exact List.mem_dedup.1 (List.mem_filter.1 hd).1
    have hne2 : dims.dedup.filter (fun d => decide (d ≠ [1])) ≠ [] := by
      intro h0
      have h2 : ∀ d ∈ dims.dedup, d = [1] := by
        intro d hd
        by_contra hc
        have : d ∈ dims.dedup.filter (fun d => decide (d ≠ [1])) := List.mem_filter.2 ⟨hd, by simpa using hc⟩
        rw [h0] at this
        simp at this
      have hn := List.nodup_dedup dims
      match hv : dims.dedup with
      | [] => rw [hv] at h1; simp at h1
      | [_] => rw [hv] at h1; simp at h1
      | a :: b :: l =>
        rw [hv] at h2 hn
        have := h2 a (by simp)
        have := h2 b (by simp)
        simp_all
    obtain ⟨c, e1, e2, e3, e4⟩ := commonBlockdim_spec _ n hne2 (fun d hd => h d (hmem d hd))
    exact ⟨c, e1, e2, e3, fun h5 => e4 fun d hd => h5 d (hmem d hd)⟩
  · have hne2 : dims.dedup ≠ [] := by
      intro h0
      apply hne
      cases dims with
      | nil => rfl
      | cons a l =>
        have : a ∈ (a :: l).dedup := List.mem_dedup.2 (by simp)
        rw [h0] at this
        simp at this
    obtain ⟨c, e1, e2, e3, e4⟩ := commonBlockdim_spec _ n hne2 hd
    exact ⟨c, e1, e2, e3, fun h5 => e4 fun d hd => h5 d (List.mem_dedup.1 hd)⟩

theorem consolidate_same {dims : List (List Nat)} {c : List Nat} (hne : dims ≠ []) (h : ∀ d ∈ dims, d = c) :
    consolidate dims = .ok c := by
  have hd : dims.dedup = [c] := by
    have hall : ∀ d ∈ dims.dedup, d = c := fun d hd => h d (List.mem_dedup.1 hd)
    have hn := List.nodup_dedup dims
    have hmem : c ∈ dims.dedup := by
      cases dims with
      | nil => exact absurd rfl hne
      | cons a l => rw [← h a (by simp)]; exact List.mem_dedup.2 (by simp)
    match hv : dims.dedup with
    | [] => rw [hv] at hmem; simp at hmem
    | [a] => rw [hall a (by simp [hv])]
    | a :: b :: l =>
      have h1 := hall a (by simp [hv])
      have h2 := hall b (by simp [hv])
      rw [hv, h1, h2] at hn
      simp at hn
  unfold consolidate
  rw [hd]
  simp only [List.length_singleton, Nat.lt_irrefl, if_false]
  unfold commonBlockdim
  by_cases h : 1 < c.length
  · simp [h]
  · simp [h, maxFirst]

theorem mem_chunksFor {args : List Arg} {l : Label} {c : List Nat} :
    c ∈ chunksFor args l ↔ ∃ a ∈ args, (l, c) ∈ a.1.zip a.2 := by
  simp only [chunksFor, List.mem_flatMap, List.mem_filterMap]
  constructor
  · rintro ⟨a, ha, p, hp, h⟩
    split_ifs at h with h1
    · refine ⟨a, ha, ?_⟩
      obtain ⟨p1, p2⟩ := p
      simp only at h1
      simp only [Option.some.injEq] at h
      subst h1; subst h
      exact hp
  · rintro ⟨a, ha, h⟩
    exact ⟨a, ha, (l, c), h, by simp⟩

/-- What the tasks can rely on after unification. -/
structure Unified (args : List Arg) (ext : Label → Nat) (env : Label → List Nat) : Prop where
  good : ∀ a ∈ args, ∀ p ∈ a.1.zip a.2, GoodChunks (env p.1) ∧ (env p.1).sum = ext p.1
  same : ∀ a ∈ args, ∀ p ∈ a.1.zip a.2, newChunks env p.1 p.2 = env p.1
  single : ∀ a ∈ args, ∀ p ∈ a.1.zip a.2, (∀ c ∈ chunksFor args p.1, c.length = 1) → env p.1 = [ext p.1]
  kept : ∀ l c, chunksFor args l ≠ [] → (∀ d ∈ chunksFor args l, d = c) → env l = c

theorem unify_ok (args : List Arg) (ext : Label → Nat) (hlen : ∀ a ∈ args, a.1.length = a.2.length)
    (h : ∀ a ∈ args, ∀ p ∈ a.1.zip a.2, GoodChunks p.2 ∧ p.2.sum = ext p.1) :
    ∃ env, unify args = .ok env ∧ Unified args ext env := by
  have key : ∀ a ∈ args, ∀ p ∈ a.1.zip a.2, ∃ c, consolidate (chunksFor args p.1) = .ok c ∧ GoodChunks c ∧
      c.sum = ext p.1 ∧ ((∀ d ∈ chunksFor args p.1, d.length = 1) → c.length = 1) := by
    intro a ha p hp
    refine consolidate_spec _ _ ?_ ?_
    · exact List.ne_nil_of_mem (mem_chunksFor.2 ⟨a, ha, by simpa using hp⟩)
    · intro d hd
      obtain ⟨a', ha', hd'⟩ := mem_chunksFor.1 hd
      exact h a' ha' _ hd'
  have hU : Unified args ext (unified args) := by
    have good : ∀ a ∈ args, ∀ p ∈ a.1.zip a.2, GoodChunks (unified args p.1) ∧ (unified args p.1).sum = ext p.1 := by
      intro a ha p hp
      obtain ⟨c, e1, e2, e3, -⟩ := key a ha p hp
      simp only [unified, e1]
      exact ⟨e2, e3⟩
    refine ⟨good, ?_, ?_, ?_⟩
    rotate_left 2
    · intro l c h1 h2
      simp only [unified, consolidate_same h1 h2]
    · intro a ha p hp
      unfold newChunks
      split_ifs with h1
      · rfl
      · have g := good a ha p hp
        have e := (h a ha p hp).2
        rw [g.1.small (by rw [g.2]; omega), g.2, e]
    · intro a ha p hp hs
      obtain ⟨c, e1, e2, e3, e4⟩ := key a ha p hp
      simp only [unified, e1]
      obtain ⟨x, rfl⟩ := List.length_eq_one_iff.1 (e4 hs)
      simpa using e3
  refine ⟨unified args, ?_, hU⟩
  unfold unify
  rw [if_pos, if_pos]
  · rw [List.all_eq_true]
    intro a ha
    rw [List.all_eq_true]
    intro p hp
    rw [hU.same a ha p hp, decide_eq_true_eq, (hU.good a ha p hp).2, (h a ha p hp).2]
  · rw [List.all_eq_true]
    intro a ha
    rw [List.all_eq_true]
    intro l hl
    obtain ⟨k, hk, rfl⟩ := List.mem_iff_getElem.1 hl
    have hk2 : k < a.2.length := by rw [← hlen a ha]; exact hk
    obtain ⟨c, e1, -⟩ := key a ha (a.1[k], a.2[k]) (by
      rw [← List.getElem_zip (h := by simp [hk, hk2])]
      exact List.getElem_mem _)
    simp only at e1
    rw [e1]

theorem blockSize_single (n : Nat) : blockSize [n] 0 = n := rfl
theorem blockOff_zero (c : List Nat) : blockOff c 0 = 0 := by simp [blockOff]

theorem pick_block {c : List Nat} {j : Nat} (h : j < c.length) : (if c.length = 1 then 0 else j) = j := by
  split_ifs with h1
  · omega
  · rfl

/-- The block indices of an array with no axis, or one more axis. -/
theorem isBlock_nil {b : List Nat} : IsBlock [] b ↔ b = [] := by simp [IsBlock, List.forall₂_nil_right_iff]

theorem isBlock_cons {c : List Nat} {cs : List (List Nat)} {b : List Nat} :
    IsBlock (c :: cs) b ↔ ∃ j b', b = j :: b' ∧ j < c.length ∧ IsBlock cs b' := by
  unfold IsBlock
  constructor
  · intro h
    cases h with
    | cons h1 h2 => exact ⟨_, _, rfl, h1, h2⟩
  · rintro ⟨j, b', rfl, h1, h2⟩
    exact .cons h1 h2

theorem isIndex_nil {i : List Nat} : IsIndex [] i ↔ i = [] := by simp [IsIndex, List.forall₂_nil_right_iff]

theorem isIndex_cons {n : Nat} {ns i : List Nat} :
    IsIndex (n :: ns) i ↔ ∃ x i', i = x :: i' ∧ x < n ∧ IsIndex ns i' := by
  unfold IsIndex
  constructor
  · intro h
    cases h with
    | cons h1 h2 => exact ⟨_, _, rfl, h1, h2⟩
  · rintro ⟨j, b', rfl, h1, h2⟩
    exact .cons h1 h2

/-- After unification every argument has the unified chunks. -/
theorem fetch_eq {args : List Arg} {ext : Label → Nat} {env : Label → List Nat} (hU : Unified args ext env)
    (d : DArr α) (labels : List Label) (hd : d.arg labels ∈ args) (hlen : labels.length = d.chunks.length)
    (out : List (Label × Nat)) :
    fetch env d labels out = nest ⟨labels.map env, d.val⟩ out labels (labels.map env) [] := by
  have h : List.zipWith (newChunks env) labels d.chunks = labels.map env := by
    apply List.ext_getElem
    · simp [hlen]
    · intro k h1 h2
      simp only [List.getElem_zipWith, List.getElem_map]
      have hk : k < (labels.zip d.chunks).length := by simpa using h1
      have := hU.same _ hd ((labels.zip d.chunks)[k]) (List.getElem_mem hk)
      simpa using this
  simp only [fetch, DArr.rechunk, h]

/-- The block of a label that a task works on: the output's, or the only one. -/
def blk (out : List (Label × Nat)) (l : Label) : Nat := (pick l out).getD 0

/-- What a task gets of an array: of the contracted axes, the first block. -/
def part (env : Label → List Nat) (out : List (Label × Nat)) (labels : List Label) (d : DArr α) : NArr α :=
  ⟨labels.map fun l => blockSize (env l) (blk out l),
    fun i => d.val (List.zipWith (· + ·) (labels.map fun l => blockOff (env l) (blk out l)) i)⟩

/-- The block index of a label is in range: the output's, or the first one. -/
def InRange (env : Label → List Nat) (out : List (Label × Nat)) (l : Label) : Prop :=
  match pick l out with
  | some j => j < (env l).length
  | none => 0 < (env l).length

private theorem nest_firsts (d : DArr α) (env : Label → List Nat) (out : List (Label × Nat)) :
    ∀ (labels : List Label) (done : List Nat), (∀ l ∈ labels, InRange env out l) →
      (nest d out labels (labels.map env) done).firsts (labels.countP fun l => (pick l out).isNone) =
        .ok (d.block (done ++ labels.map (blk out))) := by
  intro labels
  induction labels with
  | nil => intro done _; simp [nest, Nest.firsts, Nest.array]
  | cons l ls ih =>
    intro done h
    have hl := h l (by simp)
    have ht : ∀ l ∈ ls, InRange env out l := fun l hl => h l (by simp [hl])
    simp only [List.map_cons, nest]
    unfold InRange at hl
    cases hp : pick l out with
    | some j =>
      rw [hp] at hl
      rw [List.countP_cons_of_neg (by simp [hp])]
      simp only at hl ⊢
      rw [pick_block hl, ih _ ht]
      simp [blk, hp]
    | none =>
      rw [hp] at hl
      rw [List.countP_cons_of_pos (by simp [hp])]
      simp only at hl ⊢
      obtain ⟨k, hk⟩ : ∃ k, (env l).length = k + 1 := ⟨(env l).length - 1, by omega⟩
      simp only [hk, List.range_succ_eq_map, List.map_cons, Nest.firsts, Nest.item0]
      rw [ih _ ht]
      simp [blk, hp]

/-- A task of `blockwise` gets the parts of its arguments. -/
theorem fetch_part {args : List Arg} {ext : Label → Nat} {env : Label → List Nat} (hU : Unified args ext env)
    (d : DArr α) (labels : List Label) (hd : d.arg labels ∈ args) (hlen : labels.length = d.chunks.length)
    (out : List (Label × Nat)) (h : ∀ l ∈ labels, InRange env out l) :
    (fetch env d labels out).firsts (labels.countP fun l => (pick l out).isNone) = .ok (part env out labels d) := by
  rw [fetch_eq hU d labels hd hlen, nest_firsts _ _ _ _ _ h]
  simp [DArr.block, part, List.zipWith_map_left, List.zipWith_map_right, List.zipWith_self]

/-- `blockwise` succeeds on arrays whose axes of the same label have the same extent. -/
theorem blockwise_ok (outLabels : List Label) (newAxes : List (Label × Nat)) (args : List Arg)
    (f : (Label → List Nat) → List (Label × Nat) → Except PyErr (NArr β)) (ext : Label → Nat)
    (hl : ∀ l ∈ outLabels, (∃ a ∈ args, l ∈ a.1) ∨ ∃ p ∈ newAxes, p.1 = l)
    (hlen : ∀ a ∈ args, a.1.length = a.2.length)
    (h : ∀ a ∈ args, ∀ p ∈ a.1.zip a.2, GoodChunks p.2 ∧ p.2.sum = ext p.1) :
    ∃ env, Unified args ext env ∧ blockwise outLabels newAxes args f = .ok {
        chunks := outLabels.map fun l => match pick l newAxes with
          | some n => [n]
          | none => env l
        block := fun b => f env (outLabels.zip b) } := by
  obtain ⟨env, he, hU⟩ := unify_ok args ext hlen h
  refine ⟨env, hU, ?_⟩
  unfold blockwise
  rw [if_pos, he]
  · rfl
  rw [List.all_eq_true]
  intro l hm
  rcases hl l hm with ⟨a, ha, h1⟩ | ⟨p, hp, h1⟩
  · simp only [Bool.or_eq_true, List.any_eq_true, decide_eq_true_eq]
    exact Or.inl ⟨a, ha, h1⟩
  · simp only [Bool.or_eq_true, List.any_eq_true, decide_eq_true_eq]
    exact Or.inr ⟨p, hp, h1⟩

private theorem pick_zip (g : Label → List Nat) (l : Label) : ∀ (ls : List Label) (b : List Nat), l ∈ ls →
    IsBlock (ls.map g) b → ∃ j, pick l (ls.zip b) = some j ∧ j < (g l).length := by
  intro ls
  induction ls with
  | nil => simp
  | cons k ks ih =>
    intro b hl hb
    rw [List.map_cons, isBlock_cons] at hb
    obtain ⟨j, b', rfl, h1, h2⟩ := hb
    simp only [List.zip_cons_cons, pick]
    by_cases hk : k = l
    · subst hk; exact ⟨j, by simp, h1⟩
    · rw [if_neg hk]
      exact ih b' (by simpa [Ne.symm hk] using hl) h2

theorem pick_zip_none (l : Label) : ∀ (ls : List Label) (b : List Nat), l ∉ ls → pick l (ls.zip b) = none := by
  intro ls
  induction ls with
  | nil => simp [pick]
  | cons k ks ih =>
    intro b hl
    cases b with
    | nil => simp [pick]
    | cons j b =>
      simp only [List.mem_cons, not_or] at hl
      simp only [List.zip_cons_cons, pick]
      rw [if_neg (Ne.symm hl.1), ih b hl.2]

/-- Chunks declared for a label of the output. -/
def outChunks (newAxes : List (Label × Nat)) (env : Label → List Nat) (l : Label) : List Nat :=
  match pick l newAxes with
  | some n => [n]
  | none => env l

/-- Everything known about a successful `blockwise`. -/
structure AnyRun (outLabels : List Label) (newAxes : List (Label × Nat)) (args : List Arg) (ext : Label → Nat)
    (env : Label → List Nat) : Prop where
  unified : Unified args ext env
  good : ∀ a ∈ args, ∀ l ∈ a.1, GoodChunks (env l) ∧ (env l).sum = ext l
  inRange : ∀ b, IsBlock (outLabels.map (outChunks newAxes env)) b → ∀ a ∈ args, ∀ l ∈ a.1,
    InRange env (outLabels.zip b) l

/-- Everything known about a successful `blockwise` whose contracted axes are single blocks. -/
structure Run (outLabels : List Label) (newAxes : List (Label × Nat)) (args : List Arg) (ext : Label → Nat)
    (env : Label → List Nat) : Prop extends AnyRun outLabels newAxes args ext env where
  contracted : ∀ a ∈ args, ∀ l ∈ a.1, l ∉ outLabels → env l = [ext l]

theorem mem_zip_labels {a : Arg} (hlen : a.1.length = a.2.length) {l : Label} (hl : l ∈ a.1) :
    ∃ c, (l, c) ∈ a.1.zip a.2 := by
  obtain ⟨k, hk, rfl⟩ := List.mem_iff_getElem.1 hl
  have hk2 : k < a.2.length := by rw [← hlen]; exact hk
  refine ⟨a.2[k], ?_⟩
  rw [← List.getElem_zip (h := by simp [hk, hk2])]
  exact List.getElem_mem _

theorem blockwise_any_run (outLabels : List Label) (newAxes : List (Label × Nat)) (args : List Arg)
    (f : (Label → List Nat) → List (Label × Nat) → Except PyErr (NArr β)) (ext : Label → Nat)
    (hl : ∀ l ∈ outLabels, (∃ a ∈ args, l ∈ a.1) ∨ ∃ p ∈ newAxes, p.1 = l)
    (hlen : ∀ a ∈ args, a.1.length = a.2.length)
    (h : ∀ a ∈ args, ∀ p ∈ a.1.zip a.2, GoodChunks p.2 ∧ p.2.sum = ext p.1) :
    ∃ env, AnyRun outLabels newAxes args ext env ∧ blockwise outLabels newAxes args f = .ok {
        chunks := outLabels.map (outChunks newAxes env)
        block := fun b => f env (outLabels.zip b) } := by
  obtain ⟨env, hU, he⟩ := blockwise_ok outLabels newAxes args f ext hl hlen h
  have good : ∀ a ∈ args, ∀ l ∈ a.1, GoodChunks (env l) ∧ (env l).sum = ext l := by
    intro a ha l hl
    obtain ⟨c, hc⟩ := mem_zip_labels (hlen a ha) hl
    exact hU.good a ha _ hc
  refine ⟨env, ⟨hU, good, ?_⟩, he⟩
  intro b hb a ha l hl
  unfold InRange
  have hpos := List.length_pos_iff.2 (good a ha l hl).1.ne_nil
  by_cases hout : l ∈ outLabels
  · obtain ⟨j, hj, hlt⟩ := pick_zip (outChunks newAxes env) l outLabels b hout hb
    rw [hj]
    simp only [outChunks] at hlt
    cases hp : pick l newAxes with
    | none => rw [hp] at hlt; exact hlt
    | some n => rw [hp] at hlt; simp only [List.length_singleton] at hlt ⊢; omega
  · rw [pick_zip_none l outLabels b hout]
    exact hpos

theorem blockwise_run (outLabels : List Label) (newAxes : List (Label × Nat)) (args : List Arg)
    (f : (Label → List Nat) → List (Label × Nat) → Except PyErr (NArr β)) (ext : Label → Nat)
    (hl : ∀ l ∈ outLabels, (∃ a ∈ args, l ∈ a.1) ∨ ∃ p ∈ newAxes, p.1 = l)
    (hlen : ∀ a ∈ args, a.1.length = a.2.length)
    (h : ∀ a ∈ args, ∀ p ∈ a.1.zip a.2, (GoodChunks p.2 ∧ p.2.sum = ext p.1) ∧ (p.1 ∉ outLabels → p.2.length = 1)) :
    ∃ env, Run outLabels newAxes args ext env ∧ blockwise outLabels newAxes args f = .ok {
        chunks := outLabels.map (outChunks newAxes env)
        block := fun b => f env (outLabels.zip b) } := by
  obtain ⟨env, hA, he⟩ := blockwise_any_run outLabels newAxes args f ext hl hlen fun a ha p hp => (h a ha p hp).1
  refine ⟨env, ⟨hA, ?_⟩, he⟩
  intro a ha l hl hout
  obtain ⟨c, hc⟩ := mem_zip_labels (hlen a ha) hl
  refine hA.unified.single a ha _ hc fun d hd => ?_
  obtain ⟨a', ha', hd'⟩ := mem_chunksFor.1 hd
  exact (h a' ha' _ hd').2 hout

/-- A task of `blockwise` gets the parts of its arguments. -/
theorem AnyRun.fetch {outLabels : List Label} {newAxes : List (Label × Nat)} {args : List Arg} {ext : Label → Nat}
    {env : Label → List Nat} (hR : AnyRun outLabels newAxes args ext env) (d : DArr α) (labels : List Label) (k : Nat)
    (b : List Nat) (hb : IsBlock (outLabels.map (outChunks newAxes env)) b)
    (hd : d.arg labels ∈ args) (hlen : labels.length = d.chunks.length)
    (hk : labels.countP (fun l => l ∉ outLabels) = k) :
    (fetch env d labels (outLabels.zip b)).firsts k = .ok (part env (outLabels.zip b) labels d) := by
  rw [← fetch_part hR.unified d labels hd hlen _ (fun l hl => hR.inRange b hb _ hd l hl), ← hk]
  congr 1
  apply List.countP_congr
  intro l hl
  by_cases hout : l ∈ outLabels
  · obtain ⟨j, hj, hlt⟩ := pick_zip (outChunks newAxes env) l outLabels b hout hb
    simp [hout, hj]
  · simp [hout, pick_zip_none l outLabels b hout]

theorem Run.fetch {outLabels : List Label} {newAxes : List (Label × Nat)} {args : List Arg} {ext : Label → Nat}
    {env : Label → List Nat} (hR : Run outLabels newAxes args ext env) (d : DArr α) (labels : List Label) (k : Nat)
    (b : List Nat) (hb : IsBlock (outLabels.map (outChunks newAxes env)) b)
    (hd : d.arg labels ∈ args) (hlen : labels.length = d.chunks.length)
    (hk : labels.countP (fun l => l ∉ outLabels) = k) :
    (fetch env d labels (outLabels.zip b)).firsts k = .ok (part env (outLabels.zip b) labels d) :=
  hR.toAnyRun.fetch d labels k b hb hd hlen hk

theorem isBlock_zero {chunks : List (List Nat)} (h : ∀ c ∈ chunks, c ≠ []) :
    IsBlock chunks (chunks.map fun _ => 0) := by
  induction chunks with
  | nil => exact .nil
  | cons c cs ih =>
    exact .cons (List.length_pos_iff.2 (h c (by simp))) (ih fun c hc => h c (by simp [hc]))

/-- If every block raises `e` the result agrees with raising `e`. -/
theorem Lazy.agrees_error {l : Lazy α} {e : PyErr} (h : ∀ c ∈ l.chunks, c ≠ [])
    (hb : ∀ b, IsBlock l.chunks b → l.block b = .error e) : l.Agrees (.error e) :=
  ⟨_, isBlock_zero h, hb _ (isBlock_zero h)⟩

theorem DArr.Valid.two {d : DArr α} (h : d.Valid 2) : ∃ a b, d.chunks = [a, b] ∧ GoodChunks a ∧ GoodChunks b := by
  obtain ⟨h1, h2⟩ := h
  match hc : d.chunks, h1 with
  | [a, b], _ => exact ⟨a, b, rfl, h2 a (by simp [hc]), h2 b (by simp [hc])⟩

theorem DArr.Valid.one {d : DArr α} (h : d.Valid 1) : ∃ a, d.chunks = [a] ∧ GoodChunks a := by
  obtain ⟨h1, h2⟩ := h
  match hc : d.chunks, h1 with
  | [a], _ => exact ⟨a, rfl, h2 a (by simp [hc])⟩

/-- One iteration of a loop that fills an array: element `s` is what `g s` gives. -/
def fillStep {σ ε : Type*} (g : Nat → Except ε σ) (s : Nat) (out : Nat → σ) : Except ε (Nat → σ) :=
  match g s with
  | .error e => .error e
  | .ok v => .ok (Function.update out s v)

/-- A loop that fills one element per iteration: each element is what its own iteration gives. -/
theorem forRangeM_fill {σ ε : Type*} (n : Nat) (init : Nat → σ) (g : Nat → Except ε σ) :
    (∀ out, forRangeM n init (fillStep g) = .ok out → ∀ s < n, g s = .ok (out s)) ∧
    (∀ e, forRangeM n init (fillStep g) = .error e → ∃ s < n, g s = .error e) := by
  induction n with
  | zero => simp
  | succ n ih =>
    rw [forRangeM_succ]
    generalize forRangeM n init _ = r at ih ⊢
    cases r with
    | error e =>
      refine ⟨(by intro out h; cases h), fun e' h => ?_⟩
      cases h
      obtain ⟨s, h1, h2⟩ := ih.2 e rfl
      exact ⟨s, by omega, h2⟩
    | ok out =>
      have ih := ih.1 out rfl
      simp only [bind, Except.bind, fillStep]
      cases hg : g n with
      | error e =>
        refine ⟨(by intro out h; cases h), fun e' h => ?_⟩
        cases h
        exact ⟨n, by omega, hg⟩
      | ok v =>
        refine ⟨fun out' h s hs => ?_, by intro e h; cases h⟩
        cases h
        by_cases h : s = n
        · subst h; simp [hg]
        · rw [Function.update_of_ne h]
          exact ih s (by omega)

theorem GoodChunks.block_pos {c : List Nat} (h : GoodChunks c) {j : Nat} (hj : j < c.length) :
    0 < blockSize c j ↔ 0 < c.sum := by
  rcases h with rfl | ⟨_, hp⟩
  · simp only [List.length_singleton] at hj
    obtain rfl : j = 0 := by omega
    simp [blockSize]
  · have h1 : 0 < blockSize c j := by
      have : blockSize c j = c[j] := by simp [blockSize, List.getD_eq_getElem?_getD, hj]
      rw [this]
      exact hp _ (List.getElem_mem _)
    have h2 := blockOff_lt h1
    exact iff_of_true h1 (by omega)

theorem Lazy.agrees_ok {l : Lazy α} {a : NArr α} (hs : l.chunks.map List.sum = a.shape)
    (h : ∀ b, IsBlock l.chunks b → ∃ v, l.block b = .ok ⟨List.zipWith blockSize l.chunks b, v⟩ ∧
      ∀ i, IsIndex (List.zipWith blockSize l.chunks b) i →
        v i = a.val (List.zipWith (· + ·) (List.zipWith blockOff l.chunks b) i)) : l.Agrees (.ok a) := by
  refine ⟨hs, fun b hb => ?_⟩
  obtain ⟨v, h1, h2⟩ := h b hb
  exact ⟨_, h1, rfl, h2⟩

/-- The outcome for one block is that for the whole array, restricted to the block. -/
def BlockOf (r whole : Except PyErr (NArr α)) (size off : List Nat) : Prop :=
  match whole with
  | .error e => r = .error e
  | .ok a => ∃ v, r = .ok ⟨size, v⟩ ∧ ∀ i, IsIndex size i → v i = a.val (List.zipWith (· + ·) off i)

theorem Lazy.agrees_blocks {l : Lazy α} {r : Except PyErr (NArr α)} (hne : ∀ c ∈ l.chunks, c ≠ [])
    (hs : ∀ a, r = .ok a → l.chunks.map List.sum = a.shape)
    (h : ∀ b, IsBlock l.chunks b →
      BlockOf (l.block b) r (List.zipWith blockSize l.chunks b) (List.zipWith blockOff l.chunks b)) : l.Agrees r := by
  cases r with
  | error e => exact Lazy.agrees_error hne h
  | ok a => exact Lazy.agrees_ok (hs a rfl) h

theorem DArr.Valid.three {d : DArr α} (h : d.Valid 3) :
    ∃ a b c, d.chunks = [a, b, c] ∧ GoodChunks a ∧ GoodChunks b ∧ GoodChunks c := by
  obtain ⟨h1, h2⟩ := h
  match hc : d.chunks, h1 with
  | [a, b, c], _ => exact ⟨a, b, c, rfl, h2 a (by simp [hc]), h2 b (by simp [hc]), h2 c (by simp [hc])⟩

theorem DArr.Valid.four {d : DArr α} (h : d.Valid 4) :
    ∃ a b c e, d.chunks = [a, b, c, e] ∧ GoodChunks a ∧ GoodChunks b ∧ GoodChunks c ∧ GoodChunks e := by
  obtain ⟨h1, h2⟩ := h
  match hc : d.chunks, h1 with
  | [a, b, c, e], _ =>
    exact ⟨a, b, c, e, rfl, h2 a (by simp [hc]), h2 b (by simp [hc]), h2 c (by simp [hc]), h2 e (by simp [hc])⟩

theorem DArr.Valid.five {d : DArr α} (h : d.Valid 5) :
    ∃ a b c e f, d.chunks = [a, b, c, e, f] ∧ GoodChunks a ∧ GoodChunks b ∧ GoodChunks c ∧ GoodChunks e ∧ GoodChunks f := by
  obtain ⟨h1, h2⟩ := h
  match hc : d.chunks, h1 with
  | [a, b, c, e, f], _ =>
    exact ⟨a, b, c, e, f, rfl, h2 a (by simp [hc]), h2 b (by simp [hc]), h2 c (by simp [hc]), h2 e (by simp [hc]),
      h2 f (by simp [hc])⟩

/-- The extents of the labels, as a table. -/
def extents (t : List (Label × Nat)) (l : Label) : Nat := (pick l t).getD 0

/-- `blockwise_run` with the hypotheses on the arguments axis by axis. -/
theorem blockwise_axes {β : Type*} (outLabels : List Label) (newAxes : List (Label × Nat)) (args : List Arg)
    (f : (Label → List Nat) → List (Label × Nat) → Except PyErr (NArr β)) (ext : Label → Nat)
    (hl : ∀ l ∈ outLabels, (∃ a ∈ args, l ∈ a.1) ∨ ∃ p ∈ newAxes, p.1 = l)
    (h : ∀ a ∈ args, List.Forall₂ (fun l c => GoodChunks c ∧ c.sum = ext l ∧ (l ∈ outLabels ∨ c.length = 1)) a.1 a.2) :
    ∃ env, Run outLabels newAxes args ext env ∧ blockwise outLabels newAxes args f = .ok {
        chunks := outLabels.map (outChunks newAxes env)
        block := fun b => f env (outLabels.zip b) } := by
  refine blockwise_run outLabels newAxes args f ext hl (fun a ha => (h a ha).length_eq) ?_
  intro a ha p hp
  have h1 := List.forall₂_iff_zip.1 (h a ha)
  obtain ⟨g1, g2, g3⟩ := h1.2 (show (p.1, p.2) ∈ _ from hp)
  exact ⟨⟨g1, g2⟩, fun hn => g3.resolve_left hn⟩

/-- `blockwise_any_run` with the hypotheses on the arguments axis by axis: contracted axes may have several blocks. -/
theorem blockwise_any_axes {β : Type*} (outLabels : List Label) (newAxes : List (Label × Nat)) (args : List Arg)
    (f : (Label → List Nat) → List (Label × Nat) → Except PyErr (NArr β)) (ext : Label → Nat)
    (hl : ∀ l ∈ outLabels, (∃ a ∈ args, l ∈ a.1) ∨ ∃ p ∈ newAxes, p.1 = l)
    (h : ∀ a ∈ args, List.Forall₂ (fun l c => GoodChunks c ∧ c.sum = ext l) a.1 a.2) :
    ∃ env, AnyRun outLabels newAxes args ext env ∧ blockwise outLabels newAxes args f = .ok {
        chunks := outLabels.map (outChunks newAxes env)
        block := fun b => f env (outLabels.zip b) } := by
  refine blockwise_any_run outLabels newAxes args f ext hl (fun a ha => (h a ha).length_eq) ?_
  intro a ha p hp
  exact (List.forall₂_iff_zip.1 (h a ha)).2 (show (p.1, p.2) ∈ _ from hp)

end Verif.Dask
