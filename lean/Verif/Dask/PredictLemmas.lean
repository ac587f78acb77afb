/-
Every block of the dask `predict_vis` is the prediction of Verif/Rime/Model2.lean for the terms of that block.
-/
import Verif.Dask.PredictSpec
import Verif.Dask.Lemmas
import Verif.Rime.Props2

set_option autoImplicit false
set_option linter.unusedSimpArgs false

namespace Verif.Dask

open Verif.Rime

variable {V : Type}

theorem blockCount_const {l : List Nat} {n : Nat} (hne : l ≠ []) (h : ∀ c ∈ l, c = n) : blockCount l = .ok n := by
  have hd : l.dedup = [n] := by
    have h1 : ∀ c ∈ l.dedup, c = n := fun c hc => h c (List.mem_dedup.1 hc)
    have h2 := List.nodup_dedup l
    cases hl : l.dedup with
    | nil => exact absurd ((List.dedup_eq_nil _).1 hl) hne
    | cons a m =>
      rw [hl] at h1 h2
      obtain rfl := h1 a (by simp)
      cases m with
      | nil => rfl
      | cons b m =>
        obtain rfl := h1 b (by simp)
        simp at h2
  unfold blockCount
  rw [hd]
  simp

theorem mostBlocks_const {c : List Nat} {cs : List (List Nat)} (h : ∀ d ∈ cs, d.length = c.length) :
    mostBlocks (c :: cs) = c := by
  show cs.foldl (fun best d => if best.length < d.length then d else best) c = c
  induction cs with
  | nil => rfl
  | cons d cs ih =>
    rw [List.foldl_cons, if_neg (by rw [h d (by simp)]; omega)]
    exact ih fun e he => h e (by simp [he])

/-- The numbers of blocks are those of the labels. -/
def Counts (args : List Arg) (num : Label → Nat) : Prop :=
  ∀ a ∈ args, List.Forall₂ (fun l c => c.length = num l) a.1 a.2

theorem Counts.chunksFor {args : List Arg} {num : Label → Nat} (h : Counts args num) (l : Label) :
    ∀ c ∈ chunksFor args l, c.length = num l := by
  intro c hc
  obtain ⟨a, ha, hp⟩ := mem_chunksFor.1 hc
  exact (List.forall₂_iff_zip.1 (h a ha)).2 hp

theorem Counts.blockCount {args : List Arg} {num : Label → Nat} (h : Counts args num) {l : Label}
    (hl : Dask.chunksFor args l ≠ []) : blockCount ((Dask.chunksFor args l).map List.length) = .ok (num l) := by
  refine blockCount_const (by simpa using hl) ?_
  intro n hn
  obtain ⟨c, hc, rfl⟩ := List.mem_map.1 hn
  exact h.chunksFor l c hc

theorem Counts.align {args : List Arg} {num : Label → Nat} (h : Counts args num) : countsAlign args = true := by
  unfold countsAlign
  rw [List.all_eq_true]
  intro a ha
  rw [List.all_eq_true]
  intro l hl
  have hne : Dask.chunksFor args l ≠ [] := by
    have h1 := h a ha
    obtain ⟨c, hc⟩ := mem_zip_labels h1.length_eq hl
    exact List.ne_nil_of_mem (mem_chunksFor.2 ⟨a, ha, hc⟩)
  rw [h.blockCount hne]

theorem chain_map {α β : Type} {func : Option α → Nat → List Nat → Except PyErr α}
    {func' : Option β → Nat → List Nat → Except PyErr β} (out : List Nat) (g : β → α) (g' : α → β) (hg : ∀ v, g' (g v) = v)
    (n : Nat) (h : ∀ feed, ∀ s ≤ n, func feed s out = (func' (feed.map g') s out).map g) :
    chain func out n = (chain func' out n).map g := by
  induction n with
  | zero => exact h none 0 le_rfl
  | succ n ih =>
    unfold chain
    rw [ih fun feed s hs => h feed s (by omega)]
    cases chain func' out n with
    | error e => rfl
    | ok v =>
      show func (some (g v)) (n + 1) out = _
      rw [h _ _ le_rfl, Option.map_some, hg]

theorem treeSum_map (k : Kernel V) (n m : Nat) (blk : Nat → Except PyErr (NArr V))
    (blk' : Nat → Except PyErr (Nat → Nat → V)) (tree : SumTree)
    (h : ∀ s ∈ tree.leaves, blk s = (blk' s).map (visArray n m)) :
    treeSum k blk tree = (tree.eval k blk').map (visArray n m) := by
  induction tree with
  | leaf s => exact h s (by simp [SumTree.leaves])
  | node l r ihl ihr =>
    unfold treeSum SumTree.eval
    rw [ihl fun s hs => h s (by simp [SumTree.leaves, hs]), ihr fun s hs => h s (by simp [SumTree.leaves, hs])]
    cases l.eval k blk' with
    | error e => rfl
    | ok a =>
      cases r.eval k blk' with
      | error e => rfl
      | ok b =>
        simp only [Except.map, visArray]
        congr 2
        funext i
        split <;> rfl

section
variable {time ant1 ant2 : DArr Nat} {x : Jones (DArr V)} {S R T C : List Nat} (k : Kernel V)

/-- The terms of an output block. -/
def blockTerms (x : Jones (DArr V)) (R T C : List Nat) (i j : Nat) : Terms V :=
  x.whole.terms.block (blockOff T i) (blockOff R i) (blockOff C j)

theorem skyTask_eq (h : PredictArgs time ant1 ant2 x S R T C) (hx : x.coh.isSome ∨ x.dde.isSome) (feed : Option (NArr V))
    {s i j : Nat} (hs : s < S.length) (hi : i < R.length) (hj : j < C.length) :
    skyTask k time ant1 ant2 x feed [(lSource, s), (lRow, i), (lChan, j)] =
      (predictBlock k S (blockSize R i) (blockSize C j) (fun r => time.val [blockOff R i + r])
        (fun r => ant1.val [blockOff R i + r]) (fun r => ant2.val [blockOff R i + r]) (blockTerms x R T C i j)
        (feed.map fun a r f => a.val [r, f]) s).map (visArray (blockSize R i) (blockSize C j)) := by
  have hi' : i < T.length := by rw [h.timeBlocks]; exact hi
  obtain ⟨dde, coh, die, bvis⟩ := x
  have ht := h.timeChunks
  have h1 := h.ant1Chunks
  have h2 := h.ant2Chunks
  have p1 : pick lRow [(lSource, s), (lRow, i), (lChan, j)] = some i := by simp (decide := true) [pick]
  have p2 : pick lSource [(lSource, s), (lRow, i), (lChan, j)] = some s := by simp (decide := true) [pick]
  have p3 : pick lChan [(lSource, s), (lRow, i), (lChan, j)] = some j := by simp (decide := true) [pick]
  have p4 : pick lAnt [(lSource, s), (lRow, i), (lChan, j)] = none := by simp (decide := true) [pick]
  have e1 : srcOff S s = blockOff S s := rfl
  have e2 : S.getD s 0 = blockSize S s := rfl
  unfold skyTask
  rcases dde with _ | ⟨d1, d2⟩ <;> rcases coh with _ | c
  · simp at hx
  · have hc := h.cohChunks c rfl
    simp only [fetchRaw, fetchDde, fetchCoh, ht, h1, h2, hc, ddeLabels, cohLabels, nest, p1, p2, p3, p4,
      pick_block hi, pick_block hi', pick_block hs, pick_block hj, List.nil_append, List.cons_append, List.length_cons,
      List.length_nil, List.range_one, List.map_cons, List.map_nil, Nest.firsts, Nest.item0, Nest.array, bind, Except.bind,
      pure, Except.pure, zero_add]
    simp only [npPredictVis, Jones.nsrc, Jones.nchan, Jones.terms, DArr.block, ht, h1, h2, hc, List.zipWith_cons_cons,
      List.zipWith_nil_left, List.zipWith_nil_right, List.getD_cons_zero, List.getD_cons_succ, predictBlock, blockTerms, Terms.block, Terms.dropSources, Jones.whole, DArr.whole, blockOff_zero, zero_add, Option.map_some, Option.map_none]
    rw [e1, e2]
    generalize predictVis k _ _ _ _ _ _ _ = q
    cases q <;> rfl
  · obtain ⟨n, hd1, hd2⟩ := h.ddeChunks _ rfl
    dsimp only at hd1 hd2
    simp only [fetchRaw, fetchDde, fetchCoh, ht, h1, h2, hd1, hd2, ddeLabels, cohLabels, nest, p1, p2, p3, p4,
      pick_block hi, pick_block hi', pick_block hs, pick_block hj, List.nil_append, List.cons_append, List.length_cons,
      List.length_nil, List.range_one, List.map_cons, List.map_nil, Nest.firsts, Nest.item0, Nest.array, bind, Except.bind,
      pure, Except.pure, zero_add]
    simp only [npPredictVis, Jones.nsrc, Jones.nchan, Jones.terms, DArr.block, ht, h1, h2, hd1, hd2, List.zipWith_cons_cons,
      List.zipWith_nil_left, List.zipWith_nil_right, List.getD_cons_zero, List.getD_cons_succ, predictBlock, blockTerms, Terms.block, Terms.dropSources, Jones.whole, DArr.whole, blockOff_zero, zero_add, Option.map_some, Option.map_none]
    rw [e1, e2]
    generalize predictVis k _ _ _ _ _ _ _ = q
    cases q <;> rfl
  · obtain ⟨n, hd1, hd2⟩ := h.ddeChunks _ rfl
    have hc := h.cohChunks c rfl
    dsimp only at hd1 hd2
    simp only [fetchRaw, fetchDde, fetchCoh, ht, h1, h2, hd1, hd2, hc, ddeLabels, cohLabels, nest, p1, p2, p3, p4,
      pick_block hi, pick_block hi', pick_block hs, pick_block hj, List.nil_append, List.cons_append, List.length_cons,
      List.length_nil, List.range_one, List.map_cons, List.map_nil, Nest.firsts, Nest.item0, Nest.array, bind, Except.bind,
      pure, Except.pure, zero_add]
    simp only [npPredictVis, Jones.nsrc, Jones.nchan, Jones.terms, DArr.block, ht, h1, h2, hd1, hd2, hc, List.zipWith_cons_cons,
      List.zipWith_nil_left, List.zipWith_nil_right, List.getD_cons_zero, List.getD_cons_succ, predictBlock, blockTerms, Terms.block, Terms.dropSources, Jones.whole, DArr.whole, blockOff_zero, zero_add, Option.map_some, Option.map_none]
    rw [e1, e2]
    generalize predictVis k _ _ _ _ _ _ _ = q
    cases q <;> rfl

/-- The strategy of Verif/Rime/Model2.lean for one output block. -/
def Reduction.at (R C : List Nat) (i j : Nat) : Reduction → Strategy
  | .chain => .linear [R.length, C.length] [i, j]
  | .tree t => .parallel t

theorem skyArgs_counts (h : PredictArgs time ant1 ant2 x S R T C) :
    Counts (skyArgs time ant1 ant2 x) (extents [(lSource, S.length), (lRow, R.length), (lAnt, 1), (lChan, C.length)]) := by
  have ht := h.timeChunks
  have h1 := h.ant1Chunks
  have h2 := h.ant2Chunks
  have hT := h.timeBlocks
  obtain ⟨dde, coh, die, bvis⟩ := x
  unfold Counts skyArgs
  rcases dde with _ | ⟨d1, d2⟩ <;> rcases coh with _ | c
  · simp (decide := true) [DArr.arg, ht, h1, h2, extents, pick]
  · have hc := h.cohChunks c rfl
    simp (decide := true) [DArr.arg, ht, h1, h2, hc, cohLabels, extents, pick]
  · obtain ⟨n, hd1, hd2⟩ := h.ddeChunks _ rfl
    dsimp only at hd1 hd2
    simp (decide := true) [DArr.arg, ht, h1, h2, hd1, hd2, hT, ddeLabels, extents, pick]
  · have hc := h.cohChunks c rfl
    obtain ⟨n, hd1, hd2⟩ := h.ddeChunks _ rfl
    dsimp only at hd1 hd2
    simp (decide := true) [DArr.arg, ht, h1, h2, hc, hd1, hd2, hT, cohLabels, ddeLabels, extents, pick]

theorem skyArgs_chunks (h : PredictArgs time ant1 ant2 x S R T C) (hx : x.coh.isSome ∨ x.dde.isSome) :
    (∃ l, chunksFor (skyArgs time ant1 ant2 x) lSource = S :: l) ∧
    (∃ l, chunksFor (skyArgs time ant1 ant2 x) lRow = R :: l) ∧
    (∃ l, chunksFor (skyArgs time ant1 ant2 x) lChan = C :: l) ∧
    lastChunks (skyArgs time ant1 ant2 x) lChan = C := by
  have ht := h.timeChunks
  have h1 := h.ant1Chunks
  have h2 := h.ant2Chunks
  have hT := h.timeBlocks
  obtain ⟨dde, coh, die, bvis⟩ := x
  unfold lastChunks chunksFor skyArgs
  rcases dde with _ | ⟨d1, d2⟩ <;> rcases coh with _ | c
  · simp at hx
  · have hc := h.cohChunks c rfl
    simp (decide := true) [DArr.arg, ht, h1, h2, hc, cohLabels]
  · obtain ⟨n, hd1, hd2⟩ := h.ddeChunks _ rfl
    dsimp only at hd1 hd2
    simp (decide := true) [DArr.arg, ht, h1, h2, hd1, hd2, ddeLabels]
  · have hc := h.cohChunks c rfl
    obtain ⟨n, hd1, hd2⟩ := h.ddeChunks _ rfl
    dsimp only at hd1 hd2
    simp (decide := true) [DArr.arg, ht, h1, h2, hc, hd1, hd2, cohLabels, ddeLabels]

theorem skyLazy_eq (h : PredictArgs time ant1 ant2 x S R T C) (hx : x.coh.isSome ∨ x.dde.isSome) (red : Reduction)
    (hr : red.Ok S) :
    ∃ l, skyLazy k time ant1 ant2 x red = .ok l ∧ l.chunks = [R, C] ∧ ∀ i < R.length, ∀ j < C.length,
      l.block [i, j] = (skySum k S (blockSize R i) (blockSize C j) (fun r => time.val [blockOff R i + r])
        (fun r => ant1.val [blockOff R i + r]) (fun r => ant2.val [blockOff R i + r]) (blockTerms x R T C i j)
        (red.at R C i j)).map (visArray (blockSize R i) (blockSize C j)) := by
  have hc := skyArgs_counts h
  obtain ⟨⟨ls, es⟩, ⟨lr, er⟩, ⟨lc, ec⟩, elast⟩ := skyArgs_chunks h hx
  have haxis : time.axis 0 = R := by simp [DArr.axis, h.timeChunks]
  have hS : 0 < S.length := List.length_pos_iff.2 h.goodS.ne_nil
  cases red with
  | chain =>
    unfold skyLazy linearSky
    dsimp only
    rw [if_pos hc.align, hc.blockCount (by rw [es]; simp), hc.blockCount (by rw [er]; simp),
      hc.blockCount (by rw [ec]; simp)]
    simp (decide := true) only [extents, pick, if_true, if_false, Option.getD_some]
    refine ⟨_, rfl, by simp [haxis, elast], ?_⟩
    intro i hi j hj
    have hmem : [i, j] ∈ product [R.length, C.length] := mem_product.2 (by simp [hi, hj])
    dsimp only [Reduction.at, skySum, linearReduction]
    rw [← lrEntry_last hS, lrEval_entry _ hmem _ (by omega) _ (by omega), lrEval_entry _ hmem _ (by omega) _ (by omega)]
    refine chain_map [i, j] _ (fun a r f => a.val [r, f]) (fun v => rfl) _ ?_
    intro feed s hs
    exact skyTask_eq k h hx feed (by omega) hi hj
  | tree t =>
    unfold skyLazy parallelSky blockwiseRaw
    rw [er, mostBlocks_const (fun d hd => by
      have h1 := hc.chunksFor lRow d (by rw [er]; simp [hd])
      have h2 := hc.chunksFor lRow R (by rw [er]; simp)
      exact h1.trans h2.symm), haxis, if_pos ⟨hc.align, rfl⟩]
    dsimp only
    refine ⟨_, rfl, ?_, ?_⟩
    · simp (decide := true) only [cohLabels, List.map_cons, List.map_nil, List.drop_succ_cons, List.drop_zero, if_true, if_false]
      rw [ec, mostBlocks_const (fun d hd => by
        have h1 := hc.chunksFor lChan d (by rw [ec]; simp [hd])
        have h2 := hc.chunksFor lChan C (by rw [ec]; simp)
        exact h1.trans h2.symm)]
    · intro i hi j hj
      refine treeSum_map k _ _ _ _ t fun s hs => ?_
      have hs' : s < S.length := List.mem_range.1 (hr.mem_iff.1 hs)
      exact skyTask_eq k h hx none hs' hi hj

/-- An array of visibilities and the same as a function. -/
def VisOf (n m : Nat) (r : Except PyErr (NArr V)) (q : Except PyErr (Nat → Nat → V)) : Prop :=
  match q with
  | .error e => r = .error e
  | .ok v => ∃ a, r = .ok a ∧ a.shape = [n, m] ∧ (fun i j => a.val [i, j]) = v

theorem visOf_map (n m : Nat) (q : Except PyErr (Nat → Nat → V)) : VisOf n m (q.map (visArray n m)) q := by
  cases q with
  | error e => rfl
  | ok v => exact ⟨_, rfl, rfl, rfl⟩

theorem npPredictVis_visOf {t a1 a2 : NArr Nat} {y : Jones (NArr V)} {n m : Nat} {tf a1f a2f : Nat → Nat} {z : Terms V}
    {ns : Nat} (h1 : t.shape.getD 0 0 = n) (h2 : y.nchan = m) (h3 : y.nsrc = ns) (h4 : (fun r => t.val [r]) = tf)
    (h5 : (fun r => a1.val [r]) = a1f) (h6 : (fun r => a2.val [r]) = a2f) (h7 : y.terms = z) :
    VisOf n m (npPredictVis k t a1 a2 y) (predictVis k ns n m tf a1f a2f z) := by
  subst h1 h2 h3 h4 h5 h6 h7
  unfold npPredictVis
  generalize predictVis k _ _ _ _ _ _ _ = q
  cases q with
  | error e => rfl
  | ok v => exact ⟨_, rfl, rfl, rfl⟩

theorem applyDies_eq (h : PredictArgs time ant1 ant2 x S R T C) (base : Option (Lazy V))
    (q : Nat → Nat → Except PyErr (Nat → Nat → V))
    (hb : ∀ l, base = some l → l.chunks = [R, C] ∧ ∀ i < R.length, ∀ j < C.length,
      VisOf (blockSize R i) (blockSize C j) (l.block [i, j]) (q i j))
    (hx : x.die.isSome ∨ base.isSome) :
    ∃ l, applyDiesDask k time ant1 ant2 x.die base = .ok l ∧ l.chunks = [R, C] ∧ ∀ i < R.length, ∀ j < C.length,
      VisOf (blockSize R i) (blockSize C j) (l.block [i, j])
        (match base with
          | none => predictVis k 0 (blockSize R i) (blockSize C j) (fun r => time.val [blockOff R i + r])
              (fun r => ant1.val [blockOff R i + r]) (fun r => ant2.val [blockOff R i + r])
              ⟨none, none, (blockTerms x R T C i j).die, none⟩
          | some _ =>
            match q i j with
            | .error e => .error e
            | .ok v => predictVis k 0 (blockSize R i) (blockSize C j) (fun r => time.val [blockOff R i + r])
              (fun r => ant1.val [blockOff R i + r]) (fun r => ant2.val [blockOff R i + r])
              ⟨none, none, (blockTerms x R T C i j).die, some v⟩) := by
  have ht := h.timeChunks
  have h1 := h.ant1Chunks
  have h2 := h.ant2Chunks
  have hT := h.timeBlocks
  have haxis : time.axis 0 = R := by simp [DArr.axis, h.timeChunks]
  unfold applyDiesDask
  set args := dieArgs time ant1 ant2 x.die base with hargs
  have key : Counts args (extents [(lRow, R.length), (lAnt, 1), (lChan, C.length)]) ∧
      (∃ l, chunksFor args lRow = R :: l) ∧ (∃ l, chunksFor args lChan = C :: l) := by
    rw [hargs]
    obtain ⟨dde, coh, die, bvis⟩ := x
    unfold Counts chunksFor dieArgs
    rcases die with _ | ⟨d1, d2⟩ <;> rcases base with _ | b
    · simp at hx
    · have hc := (hb b rfl).1
      simp (decide := true) [DArr.arg, ht, h1, h2, hc, visLabels, extents, pick]
    · obtain ⟨n, hd1, hd2⟩ := h.dieChunks _ rfl
      dsimp only at hd1 hd2
      simp (decide := true) [DArr.arg, ht, h1, h2, hd1, hd2, hT, dieLabels, extents, pick]
    · have hc := (hb b rfl).1
      obtain ⟨n, hd1, hd2⟩ := h.dieChunks _ rfl
      dsimp only at hd1 hd2
      simp (decide := true) [DArr.arg, ht, h1, h2, hc, hd1, hd2, hT, visLabels, dieLabels, extents, pick]
  obtain ⟨hc, ⟨lr, er⟩, ⟨lc, ec⟩⟩ := key
  unfold blockwiseRaw
  rw [er, mostBlocks_const (fun d hd => by
    have h1 := hc.chunksFor lRow d (by rw [er]; simp [hd])
    have h2 := hc.chunksFor lRow R (by rw [er]; simp)
    exact h1.trans h2.symm), haxis, if_pos ⟨hc.align, rfl⟩]
  refine ⟨_, rfl, ?_, ?_⟩
  · simp (decide := true) only [visLabels, List.map_cons, List.map_nil, if_true, if_false]
    rw [ec, mostBlocks_const (fun d hd => by
      have h1 := hc.chunksFor lChan d (by rw [ec]; simp [hd])
      have h2 := hc.chunksFor lChan C (by rw [ec]; simp)
      exact h1.trans h2.symm)]
  · intro i hi j hj
    have hi' : i < T.length := by rw [hT]; exact hi
    have p1 : pick lRow [(lRow, i), (lChan, j)] = some i := by simp (decide := true) [pick]
    have p3 : pick lChan [(lRow, i), (lChan, j)] = some j := by simp (decide := true) [pick]
    have p4 : pick lAnt [(lRow, i), (lChan, j)] = none := by simp (decide := true) [pick]
    have f1 : (fetchRaw time [lRow] [(lRow, i), (lChan, j)]).firsts 0 = .ok (time.block [i]) := by
      simp only [fetchRaw, ht, nest, p1, pick_block hi, List.nil_append, Nest.firsts, Nest.array]
    have f2 : (fetchRaw ant1 [lRow] [(lRow, i), (lChan, j)]).firsts 0 = .ok (ant1.block [i]) := by
      simp only [fetchRaw, h1, nest, p1, pick_block hi, List.nil_append, Nest.firsts, Nest.array]
    have f3 : (fetchRaw ant2 [lRow] [(lRow, i), (lChan, j)]).firsts 0 = .ok (ant2.block [i]) := by
      simp only [fetchRaw, h2, nest, p1, pick_block hi, List.nil_append, Nest.firsts, Nest.array]
    have fd : fetchDie [(lRow, i), (lChan, j)] x.die =
        .ok (x.die.map fun e => (e.1.block [i, 0, j], e.2.block [i, 0, j])) := by
      obtain ⟨dde, coh, die, bvis⟩ := x
      rcases die with _ | ⟨d1, d2⟩
      · rfl
      · obtain ⟨n, hd1, hd2⟩ := h.dieChunks _ rfl
        dsimp only at hd1 hd2
        simp only [fetchDie, fetchRaw, hd1, hd2, dieLabels, nest, p1, p3, p4, pick_block hi', pick_block hj, List.nil_append,
          List.cons_append, List.length_cons, List.length_nil, List.range_one, List.map_cons, List.map_nil, Nest.firsts,
          Nest.item0, Nest.array, bind, Except.bind, pure, Except.pure, zero_add, Option.map_some]
    have hdie : ∀ b c, (Jones.terms ⟨none, none, x.die.map fun e => (e.1.block [i, 0, j], e.2.block [i, 0, j]), b⟩ : Terms V) =
        ⟨none, none, (blockTerms x R T C i j).die, c⟩ ↔ b.map (fun a r f => a.val [r, f]) = c := by
      intro b c
      obtain ⟨dde, coh, die, bvis⟩ := x
      rcases die with _ | ⟨d1, d2⟩
      · simp [Jones.terms, blockTerms, Terms.block, Jones.whole]
      · obtain ⟨n, hd1, hd2⟩ := h.dieChunks _ rfl
        dsimp only at hd1 hd2
        simp [Jones.terms, blockTerms, Terms.block, Jones.whole, DArr.block, DArr.whole, hd1, hd2, blockOff_zero]
    have hnc : ∀ e, x.die = some e → (e.1.block [i, 0, j]).shape.getD 2 0 = blockSize C j := by
      intro e he
      obtain ⟨n, hd1, hd2⟩ := h.dieChunks e he
      simp [DArr.block, hd1]
    have htime : (time.block [i]).shape.getD 0 0 = blockSize R i := by simp [DArr.block, ht]
    have v1 : (fun r => (time.block [i]).val [r]) = fun r => time.val [blockOff R i + r] := by simp [DArr.block, ht]
    have v2 : (fun r => (ant1.block [i]).val [r]) = fun r => ant1.val [blockOff R i + r] := by simp [DArr.block, h1]
    have v3 : (fun r => (ant2.block [i]).val [r]) = fun r => ant2.val [blockOff R i + r] := by simp [DArr.block, h2]
    show VisOf _ _ (do
      let t ← (fetchRaw time [lRow] [(lRow, i), (lChan, j)]).firsts 0
      let a1 ← (fetchRaw ant1 [lRow] [(lRow, i), (lChan, j)]).firsts 0
      let a2 ← (fetchRaw ant2 [lRow] [(lRow, i), (lChan, j)]).firsts 0
      let g ← fetchDie [(lRow, i), (lChan, j)] x.die
      match base with
      | none => npPredictVis k t a1 a2 ⟨none, none, g, none⟩
      | some l => do
        let b ← l.fetchRaw visLabels [(lRow, i), (lChan, j)]
        npPredictVis k t a1 a2 ⟨none, none, g, some b⟩) _
    rw [f1, f2, f3, fd]
    cases base with
    | none =>
      refine npPredictVis_visOf k htime ?_ rfl v1 v2 v3 ((hdie none none).2 rfl)
      obtain ⟨e, he⟩ := Option.isSome_iff_exists.1 (hx.resolve_right (by simp))
      have := hnc e he
      simpa [Jones.nchan, he] using this
    | some l =>
      obtain ⟨hlc, hlb⟩ := hb l rfl
      have hv := hlb i hi j hj
      have ff : l.fetchRaw visLabels [(lRow, i), (lChan, j)] = l.block [i, j] := by
        simp only [Lazy.fetchRaw, visLabels, hlc, List.zipWith_cons_cons, List.zipWith_nil_left, p1, p3, Option.getD_some,
          pick_block hi, pick_block hj]
      simp only [bind, Except.bind]
      rw [ff]
      cases hq : q i j with
      | error e =>
        rw [hq] at hv
        have hv' : l.block [i, j] = .error e := hv
        rw [hv']
        rfl
      | ok v =>
        rw [hq] at hv
        obtain ⟨a, e1, e2, e3⟩ := hv
        rw [e1]
        refine npPredictVis_visOf k htime ?_ rfl v1 v2 v3 ((hdie (some a) (some v)).2 (by simp [e3]))
        cases hd : x.die with
        | none => simp [Jones.nchan, e2]
        | some e =>
          have := hnc e hd
          simpa [Jones.nchan] using this

theorem addLazy_eq [Inhabited V] (h : PredictArgs time ant1 ant2 x S R T C) {b : DArr V} (hb : x.bvis = some b) {l : Lazy V}
    (hl : l.chunks = [R, C]) (q : Nat → Nat → Except PyErr (Nat → Nat → V))
    (hq : ∀ i < R.length, ∀ j < C.length, VisOf (blockSize R i) (blockSize C j) (l.block [i, j]) (q i j)) :
    ∃ l', addLazy k b l = .ok l' ∧ l'.chunks = [R, C] ∧ ∀ i < R.length, ∀ j < C.length,
      VisOf (blockSize R i) (blockSize C j) (l'.block [i, j])
        (match q i j with
          | .error e => .error e
          | .ok v => .ok fun r f => k.addVis (v r f) (b.val [blockOff R i + r, blockOff C j + f])) := by
  have hc := h.bvisChunks b hb
  unfold addLazy
  rw [if_pos (by rw [hc, hl])]
  refine ⟨_, rfl, hl, ?_⟩
  intro i hi j hj
  have hv := hq i hi j hj
  dsimp only
  cases hqq : q i j with
  | error e =>
    rw [hqq] at hv
    have hv' : l.block [i, j] = .error e := hv
    rw [hv']
    rfl
  | ok v =>
    rw [hqq] at hv
    obtain ⟨a, e1, e2, e3⟩ := hv
    rw [e1]
    refine ⟨_, rfl, e2, ?_⟩
    subst e3
    simp [DArr.block, hc]

theorem badPair_dde (h : PredictArgs time ant1 ant2 x S R T C) : badPair (time.axis 0) 1 2 x.dde = false := by
  have haxis : time.axis 0 = R := by simp [DArr.axis, h.timeChunks]
  rw [haxis]
  cases hd : x.dde with
  | none => rfl
  | some e =>
    obtain ⟨n, h1, h2⟩ := h.ddeChunks e hd
    simp [badPair, DArr.dim, DArr.axis, h1, h2, h.timeBlocks]

theorem badPair_die (h : PredictArgs time ant1 ant2 x S R T C) : badPair (time.axis 0) 0 1 x.die = false := by
  have haxis : time.axis 0 = R := by simp [DArr.axis, h.timeChunks]
  rw [haxis]
  cases hd : x.die with
  | none => rfl
  | some e =>
    obtain ⟨n, h1, h2⟩ := h.dieChunks e hd
    simp [badPair, DArr.dim, DArr.axis, h1, h2, h.timeBlocks]

/-- Every block is the prediction for its terms. -/
theorem daskPredictVis_blocks [Inhabited V] (h : PredictArgs time ant1 ant2 x S R T C) (red : Reduction) (hr : red.Ok S) :
    ∃ l, daskPredictVis k time ant1 ant2 x red = .ok l ∧ l.chunks = [R, C] ∧ ∀ i < R.length, ∀ j < C.length,
      VisOf (blockSize R i) (blockSize C j) (l.block [i, j])
        (daskPredict k S (blockSize R i) (blockSize C j) (fun r => time.val [blockOff R i + r])
          (fun r => ant1.val [blockOff R i + r]) (fun r => ant2.val [blockOff R i + r]) (blockTerms x R T C i j)
          (red.at R C i j)) := by
  have hsome : (x.dde.isNone && x.coh.isNone && x.die.isNone) = false := by
    have := h.supplied
    revert this
    cases x.dde <;> cases x.coh <;> cases x.die <;> simp
  have hsome' : ∀ i j, ((blockTerms x R T C i j).dde.isNone && (blockTerms x R T C i j).coh.isNone &&
      (blockTerms x R T C i j).die.isNone) = false := by
    intro i j
    rw [← hsome]
    simp [blockTerms, Terms.block, Jones.terms, Jones.whole]
  unfold daskPredictVis
  rw [badPair_dde h, badPair_die h]
  simp only [Bool.false_eq_true, if_false, hsome]
  unfold daskPredict
  simp only [Bool.false_eq_true, if_false, hsome']
  have hsk : ∀ i j, ((blockTerms x R T C i j).coh.isSome || (blockTerms x R T C i j).dde.isSome) =
      (x.coh.isSome || x.dde.isSome) := by
    intro i j
    simp [blockTerms, Terms.block, Jones.terms, Jones.whole]
  have hbv : ∀ i j, (blockTerms x R T C i j).bvis = x.bvis.map fun b r f => b.val [blockOff R i + r, blockOff C j + f] := by
    intro i j
    simp [blockTerms, Terms.block, Jones.terms, Jones.whole, DArr.whole, Function.comp_def]
  have hdn : x.die = none → ∀ i j, (blockTerms x R T C i j).die = none := by
    intro hd i j
    simp [blockTerms, Terms.block, Jones.terms, Jones.whole, hd]
  have hds : x.die.isSome → ∀ i j, ∃ g, (blockTerms x R T C i j).die = some g := by
    intro hd i j
    obtain ⟨e, he⟩ := Option.isSome_iff_exists.1 hd
    simp [blockTerms, Terms.block, Jones.terms, Jones.whole, he]
  simp only [hsk, hbv]
  by_cases hx : x.coh.isSome ∨ x.dde.isSome
  · have hx' : (x.coh.isSome || x.dde.isSome) = true := by simpa using hx
    obtain ⟨l, hl, hlc, hlb⟩ := skyLazy_eq k h hx red hr
    set q := fun i j => skySum k S (blockSize R i) (blockSize C j) (fun r => time.val [blockOff R i + r])
          (fun r => ant1.val [blockOff R i + r]) (fun r => ant2.val [blockOff R i + r]) (blockTerms x R T C i j)
          (red.at R C i j) with hqdef
    have hv : ∀ i < R.length, ∀ j < C.length, VisOf (blockSize R i) (blockSize C j) (l.block [i, j]) (q i j) := by
      intro i hi j hj
      rw [hlb i hi j hj]
      exact visOf_map _ _ _
    simp only [hx', if_true, hl]
    have hgoal : ∀ i j, (skySum k S (blockSize R i) (blockSize C j) (fun r => time.val [blockOff R i + r])
          (fun r => ant1.val [blockOff R i + r]) (fun r => ant2.val [blockOff R i + r]) (blockTerms x R T C i j)
          (red.at R C i j)) = q i j := fun i j => rfl
    simp only [hgoal]
    cases hd : x.die with
    | none =>
      cases hb : x.bvis with
      | none =>
        refine ⟨l, rfl, hlc, fun i hi j hj => ?_⟩
        have := hv i hi j hj
        simp only [hdn hd, Option.map_none]
        cases hq : q i j with
        | error e => rw [hq] at this; exact this
        | ok v => rw [hq] at this; exact this
      | some b =>
        obtain ⟨l', e1, e2, e3⟩ := addLazy_eq k h hb hlc q hv
        obtain ⟨m, f1, f2, f3⟩ := applyDies_eq k h (some l') _ (fun l'' hl'' => by
          obtain rfl := Option.some.inj hl''
          exact ⟨e2, e3⟩) (Or.inr rfl)
        simp only [e1]
        rw [hd] at f1
        refine ⟨m, f1, f2, fun i hi j hj => ?_⟩
        have := f3 i hi j hj
        simp only [hdn hd, Option.map_some] at this ⊢
        cases hq : q i j with
        | error e => rw [hq] at this; exact this
        | ok v => rw [hq] at this; exact this
    | some e =>
      cases hb : x.bvis with
      | none =>
        obtain ⟨m, f1, f2, f3⟩ := applyDies_eq k h (some l) q (fun l'' hl'' => by
          obtain rfl := Option.some.inj hl''
          exact ⟨hlc, hv⟩) (Or.inr rfl)
        rw [hd] at f1
        refine ⟨m, f1, f2, fun i hi j hj => ?_⟩
        have := f3 i hi j hj
        obtain ⟨g, hg⟩ := hds (by rw [hd]; rfl) i j
        simp only [hg, Option.map_none] at this ⊢
        cases hq : q i j with
        | error e => rw [hq] at this; exact this
        | ok v => rw [hq] at this; exact this
      | some b =>
        obtain ⟨l', e1, e2, e3⟩ := addLazy_eq k h hb hlc q hv
        obtain ⟨m, f1, f2, f3⟩ := applyDies_eq k h (some l') _ (fun l'' hl'' => by
          obtain rfl := Option.some.inj hl''
          exact ⟨e2, e3⟩) (Or.inr rfl)
        simp only [e1]
        rw [hd] at f1
        refine ⟨m, f1, f2, fun i hi j hj => ?_⟩
        have := f3 i hi j hj
        obtain ⟨g, hg⟩ := hds (by rw [hd]; rfl) i j
        simp only [hg, Option.map_some] at this ⊢
        cases hq : q i j with
        | error e => rw [hq] at this; exact this
        | ok v => rw [hq] at this; exact this
  · have hx' : (x.coh.isSome || x.dde.isSome) = false := by
      revert hx
      cases x.coh <;> cases x.dde <;> simp
    simp only [hx', Bool.false_eq_true, if_false]
    have hdie : x.die.isSome := by
      have := h.supplied
      revert hx this
      cases x.coh <;> cases x.dde <;> simp
    obtain ⟨e, hd⟩ := Option.isSome_iff_exists.1 hdie
    cases hb : x.bvis with
    | none =>
      obtain ⟨m, f1, f2, f3⟩ := applyDies_eq k h none (fun _ _ => .error .valueError) (fun _ hl => by cases hl) (Or.inl hdie)
      rw [hd] at f1
      rw [hd]
      refine ⟨m, f1, f2, fun i hi j hj => ?_⟩
      have := f3 i hi j hj
      obtain ⟨g, hg⟩ := hds hdie i j
      simp only [hg, Option.map_none] at this ⊢
      exact this
    | some b =>
      obtain ⟨m, f1, f2, f3⟩ := applyDies_eq k h (some b.lazy)
        (fun i j => .ok fun r f => b.val [blockOff R i + r, blockOff C j + f]) (fun l'' hl'' => by
          obtain rfl := Option.some.inj hl''
          have hc := h.bvisChunks b hb
          exact ⟨hc, fun i hi j hj => ⟨_, rfl, by simp [DArr.block, hc], by simp [DArr.block, hc]⟩⟩) (Or.inl hdie)
      rw [hd] at f1
      rw [hd]
      refine ⟨m, f1, f2, fun i hi j hj => ?_⟩
      have := f3 i hi j hj
      obtain ⟨g, hg⟩ := hds hdie i j
      simp only [hg, Option.map_some] at this ⊢
      exact this

end

end Verif.Dask
