/-
C113: coordinate conversions of dask arrays.
-/
import Verif.Dask.Coords
import Verif.Dask.Lemmas

set_option autoImplicit false

namespace Verif.Dask

open Verif.Coordinates

/-- Hypotheses on the arguments: rows of coordinates whose components are one block, and a phase centre, if any, in one
block. -/
structure CoordArgs (x : DArr ℝ) (pc : Option (DArr ℝ)) : Prop where
  rows : x.Valid 2
  whole : (x.axis 1).length = 1
  centre : ∀ p ∈ pc, p.Valid 1 ∧ (p.axis 0).length = 1

private theorem centre_part {pc : Option (DArr ℝ)} {env : Label → List Nat} {out : List (Label × Nat)}
    (hp : ∀ p ∈ pc, p.Valid 1 ∧ (p.axis 0).length = 1) (henv : ∀ p ∈ pc, env lRadec = [p.dim 0])
    (hb : blk out lRadec = 0) :
    centreOf (pc.map (part env out [lRadec])) = centreOf (pc.map DArr.whole) := by
  cases pc with
  | none => rfl
  | some p =>
    obtain ⟨a, b⟩ := hp p rfl
    obtain ⟨c, hc, -⟩ := a.one
    have he := henv p rfl
    simp only [DArr.axis, DArr.dim, hc, List.getD_cons_zero] at b he
    obtain ⟨n, rfl⟩ := List.length_eq_one_iff.1 b
    simp [centreOf, part, DArr.whole, hc, he, hb, blockSize_single, blockOff_zero]

/-- Tasks of the wrappers that contract the phase centre. -/
private theorem contracted_run (outL : Label) (hout : outL ≠ lSource ∧ outL ≠ lRadec) (k : Nat)
    (np : NArr ℝ → Option (NArr ℝ) → Except PyErr (NArr Num)) (x : DArr ℝ) (pc : Option (DArr ℝ))
    (hx : CoordArgs x pc) (hdim : ∀ p ∈ pc, p.dim 0 = x.dim 1) :
    ∃ cs n, GoodChunks cs ∧ x.whole = ⟨[cs.sum, n], x.val⟩ ∧ ∃ l,
      (blockwise [lSource, outL] [(outL, k)] (x.arg [lSource, lRadec] :: pc.toList.map fun p => p.arg [lRadec])
        fun env out => do
          np (← (fetch env x [lSource, lRadec] out).firsts 1) (← firstOf (pc.map fun p => fetch env p [lRadec] out))) = .ok l ∧
      l.chunks = [cs, [k]] ∧ ∀ j < cs.length, ∃ pc', centreOf pc' = centreOf (pc.map DArr.whole) ∧ l.block [j, 0] =
        np ⟨[blockSize cs j, n], fun i => x.val (List.zipWith (· + ·) [blockOff cs j, 0] i)⟩ pc' := by
  obtain ⟨hr, h1, hp⟩ := hx
  obtain ⟨cs, cr, hc, gs, gr⟩ := hr.two
  have hcr : cr.length = 1 := by simpa [DArr.axis, hc] using h1
  obtain ⟨n, rfl⟩ := List.length_eq_one_iff.1 hcr
  have hne : ¬ lRadec = lSource := by decide
  have hne' : ¬ lSource = lRadec := by decide
  have hpc : ∀ p ∈ pc, p.chunks = [[n]] := by
    intro p hpp
    obtain ⟨a, b⟩ := hp p hpp
    have c := hdim p hpp
    obtain ⟨x, hx, -⟩ := a.one
    simp only [DArr.axis, DArr.dim, hc, hx, List.getD_cons_zero, List.getD_cons_succ] at b c
    obtain ⟨y, rfl⟩ := List.length_eq_one_iff.1 b
    simp only [List.sum_cons, List.sum_nil, add_zero] at c
    rw [hx, c]
  obtain ⟨env, hR, he⟩ := blockwise_run [lSource, outL] [(outL, k)]
    (x.arg [lSource, lRadec] :: pc.toList.map fun p => p.arg [lRadec])
    (fun env out => do
          np (← (fetch env x [lSource, lRadec] out).firsts 1) (← firstOf (pc.map fun p => fetch env p [lRadec] out)))
    (fun l => if l = lSource then cs.sum else n)
    (by simp [DArr.arg])
    (by
      intro a ha
      simp only [List.mem_cons, List.mem_map, Option.mem_toList] at ha
      rcases ha with rfl | ⟨p, hpp, rfl⟩
      · simp [DArr.arg, hc]
      · simp [DArr.arg, hpc p hpp])
    (by
      intro a ha
      simp only [List.mem_cons, List.mem_map, Option.mem_toList] at ha
      rcases ha with rfl | ⟨p, hpp, rfl⟩
      · simp [DArr.arg, hc, gs, gr, hne]
      · simp [DArr.arg, hpc p hpp, gr, hne])
  have e1 := hR.good (x.arg [lSource, lRadec]) (by simp) lSource (by simp [DArr.arg])
  have e2 := hR.contracted (x.arg [lSource, lRadec]) (by simp) lRadec (by simp [DArr.arg]) (by simp [hne, Ne.symm hout.2])
  simp only [hne, if_false] at e2
  simp only [if_true] at e1
  have hch : [lSource, outL].map (outChunks [(outL, k)] env) = [env lSource, [k]] := by
    simp [outChunks, pick, hout.1]
  refine ⟨env lSource, n, e1.1, ?_, _, he, ?_, ?_⟩
  · simp [DArr.whole, hc, e1.2]
  · exact hch
  · intro j hj
    dsimp only
    have hb : IsBlock ([lSource, outL].map (outChunks [(outL, k)] env)) [j, 0] := by
      rw [hch]
      simp [isBlock_cons, isBlock_nil, hj]
    have hbr : blk ([lSource, outL].zip [j, 0]) lRadec = 0 := by simp [blk, pick, hne', hout.2]
    refine ⟨pc.map (part env ([lSource, outL].zip [j, 0]) [lRadec]), centre_part hp ?_ hbr, ?_⟩
    · intro p hpp; simp [e2, DArr.dim, DArr.axis, hpc p hpp]
    rw [hR.fetch x [lSource, lRadec] 1 [j, 0] hb (by simp) (by simp [hc]) (by simp [hne, Ne.symm hout.2])]
    have hg : firstOf (pc.map fun p => fetch env p [lRadec] ([lSource, outL].zip [j, 0])) =
        .ok (pc.map (part env ([lSource, outL].zip [j, 0]) [lRadec])) := by
      cases pc with
      | none => rfl
      | some p =>
        have hh := hR.fetch p [lRadec] 1 [j, 0] hb (by simp) (by simp [hpc p rfl]) (by simp [hne, Ne.symm hout.2])
        simp only [Option.map_some]
        generalize Dask.fetch env p [lRadec] ([lSource, outL].zip [j, 0]) = y at hh
        match y, hh with
        | .leaf a, hh => simp only [firstOf, hh]; rfl
        | .node [], hh => simp [Nest.firsts, Nest.item0] at hh
        | .node (a :: l), hh => simp only [firstOf, hh]; rfl
    rw [hg]
    simp [bind, Except.bind, part, blk, pick, hne', hout.2, e2, blockSize_single, blockOff_zero]

private theorem isBlock_two {cs : List Nat} {k : Nat} {b : List Nat} : IsBlock [cs, [k]] b ↔ ∃ j < cs.length, b = [j, 0] := by
  simp only [isBlock_cons, isBlock_nil, List.length_singleton]
  constructor
  · rintro ⟨j, b', rfl, hj, x, b'', rfl, hx, rfl⟩
    exact ⟨j, hj, by simp; omega⟩
  · rintro ⟨j, hj, rfl⟩
    exact ⟨j, [0], rfl, hj, 0, [], rfl, by omega, rfl⟩

/-- Rows are independent: the array of every block agrees with the whole array. -/
private theorem agrees_rows {cs : List Nat} {k : Nat} {l : Lazy Num} (hch : l.chunks = [cs, [k]])
    {r : Except PyErr (NArr Num)}
    (hok : ∀ a, r = .ok a → a.shape = [cs.sum, k] ∧ ∀ j < cs.length, ∃ blkA, l.block [j, 0] = .ok blkA ∧
      blkA.shape = [blockSize cs j, k] ∧ ∀ s < blockSize cs j, ∀ c < k, blkA.val [s, c] = a.val [blockOff cs j + s, c])
    (herr : ∀ e, r = .error e → ∃ j < cs.length, l.block [j, 0] = .error e) : l.Agrees r := by
  cases r with
  | error e =>
    obtain ⟨j, hj, h⟩ := herr e rfl
    exact ⟨[j, 0], by rw [hch, isBlock_two]; exact ⟨j, hj, rfl⟩, h⟩
  | ok a =>
    obtain ⟨hs, hb⟩ := hok a rfl
    refine ⟨by rw [hch, hs]; simp, ?_⟩
    intro b hbk
    rw [hch, isBlock_two] at hbk
    obtain ⟨j, hj, rfl⟩ := hbk
    obtain ⟨blkA, h1, h2, h3⟩ := hb j hj
    refine ⟨blkA, h1, by rw [h2, hch]; simp [blockSize_single], ?_⟩
    intro i hi
    rw [h2] at hi
    simp only [isIndex_cons, isIndex_nil] at hi
    obtain ⟨s, i', rfl, hs, c, i'', rfl, hcc, rfl⟩ := hi
    rw [h3 s hs c hcc, hch]
    simp [blockOff_zero]

/-- **C113**: `radec_to_lmn` of dask arrays. -/
theorem C113_radec_to_lmn (radec : DArr ℝ) (pc : Option (DArr ℝ)) (h : CoordArgs radec pc)
    (hdim : ∀ p ∈ pc, p.dim 0 = radec.dim 1) :
    ∃ l, daskRadecToLmn radec pc = .ok l ∧ l.Agrees (npRadecToLmn radec.whole (pc.map DArr.whole)) := by
  obtain ⟨cs, n, gs, hw, l, hl, hch, hb⟩ := contracted_run lLmn (by decide) 3 npRadecToLmn radec pc h hdim
  refine ⟨l, hl, agrees_rows hch ?_ ?_⟩
  · intro a ha
    rw [hw] at ha
    unfold npRadecToLmn at ha
    simp only at ha
    split_ifs at ha with hn
    cases hpc : centreOf (pc.map DArr.whole) with
    | error e => rw [hpc] at ha; simp at ha
    | ok c =>
      rw [hpc] at ha
      simp only [radecToLmn, if_neg hn, Except.ok.injEq] at ha
      subst ha
      refine ⟨rfl, fun j hj => ?_⟩
      obtain ⟨pc', e1, e2⟩ := hb j hj
      rw [e2]
      unfold npRadecToLmn
      simp only [if_neg hn, e1, hpc, radecToLmn]
      refine ⟨_, rfl, rfl, fun s _ c hc => ?_⟩
      match c, hc with
      | 0, _ => simp [NArr.pair]
      | 1, _ => simp [NArr.pair]
      | 2, _ => simp [NArr.pair]
  · intro e ha
    rw [hw] at ha
    refine ⟨0, List.length_pos_iff.2 gs.ne_nil, ?_⟩
    obtain ⟨pc', e1, e2⟩ := hb 0 (List.length_pos_iff.2 gs.ne_nil)
    rw [e2, ← ha]
    unfold npRadecToLmn at ha ⊢
    simp only at ha ⊢
    split_ifs with hn
    · rfl
    · rw [if_neg hn] at ha
      rw [e1]
      cases hpc : centreOf (pc.map DArr.whole) with
      | error e => rfl
      | ok c => rw [hpc] at ha; simp [radecToLmn, hn] at ha

/-- **C113**: `radec_to_lm` of dask arrays. -/
theorem C113_radec_to_lm (radec : DArr ℝ) (pc : Option (DArr ℝ)) (h : CoordArgs radec pc)
    (hdim : ∀ p ∈ pc, p.dim 0 = radec.dim 1) :
    ∃ l, daskRadecToLm radec pc = .ok l ∧ l.Agrees (npRadecToLm radec.whole (pc.map DArr.whole)) := by
  obtain ⟨cs, n, gs, hw, l, hl, hch, hb⟩ := contracted_run lLm (by decide) 2 npRadecToLm radec pc h hdim
  refine ⟨l, hl, agrees_rows hch ?_ ?_⟩
  · intro a ha
    rw [hw] at ha
    unfold npRadecToLm at ha
    simp only at ha
    split_ifs at ha with hn
    cases hpc : centreOf (pc.map DArr.whole) with
    | error e => rw [hpc] at ha; simp at ha
    | ok c =>
      rw [hpc] at ha
      simp only [radecToLm, if_neg hn, Except.ok.injEq] at ha
      subst ha
      refine ⟨rfl, fun j hj => ?_⟩
      obtain ⟨pc', e1, e2⟩ := hb j hj
      rw [e2]
      unfold npRadecToLm
      simp only [if_neg hn, e1, hpc, radecToLm]
      refine ⟨_, rfl, rfl, fun s _ c hc => ?_⟩
      match c, hc with
      | 0, _ => simp [NArr.pair]
      | 1, _ => simp [NArr.pair]
  · intro e ha
    rw [hw] at ha
    refine ⟨0, List.length_pos_iff.2 gs.ne_nil, ?_⟩
    obtain ⟨pc', e1, e2⟩ := hb 0 (List.length_pos_iff.2 gs.ne_nil)
    rw [e2, ← ha]
    unfold npRadecToLm at ha ⊢
    simp only at ha ⊢
    split_ifs with hn
    · rfl
    · rw [if_neg hn] at ha
      rw [e1]
      cases hpc : centreOf (pc.map DArr.whole) with
      | error e => rfl
      | ok c => rw [hpc] at ha; simp [radecToLm, hn] at ha

/-- Tasks of the wrappers that pass the phase centre on. -/
private theorem direct_run (comp : Label) (hcomp : comp ≠ lSource ∧ comp ≠ lRadec)
    (np : NArr ℝ → Option (NArr ℝ) → Except PyErr (NArr Num)) (x : DArr ℝ) (pc : Option (DArr ℝ))
    (hx : CoordArgs x pc) :
    ∃ cs n, GoodChunks cs ∧ x.whole = ⟨[cs.sum, n], x.val⟩ ∧ ∃ l,
      (blockwise [lSource, lRadec] [(lRadec, 2)] (x.arg [lSource, comp] :: pc.toList.map fun p => p.arg [lRadec])
        fun env out => do
          np (← (fetch env x [lSource, comp] out).firsts 1) (← arrayOf (pc.map fun p => fetch env p [lRadec] out))) = .ok l ∧
      l.chunks = [cs, [2]] ∧ ∀ j < cs.length, ∃ pc', centreOf pc' = centreOf (pc.map DArr.whole) ∧ l.block [j, 0] =
        np ⟨[blockSize cs j, n], fun i => x.val (List.zipWith (· + ·) [blockOff cs j, 0] i)⟩ pc' := by
  obtain ⟨hr, h1, hp⟩ := hx
  obtain ⟨cs, cr, hc, gs, gr⟩ := hr.two
  have hcr : cr.length = 1 := by simpa [DArr.axis, hc] using h1
  obtain ⟨n, rfl⟩ := List.length_eq_one_iff.1 hcr
  have hne : ¬ lRadec = lSource := by decide
  have hne' : ¬ lSource = lRadec := by decide
  have hpc : ∀ p ∈ pc, p.chunks = [[p.dim 0]] ∧ GoodChunks [p.dim 0] := by
    intro p hpp
    obtain ⟨a, b⟩ := hp p hpp
    obtain ⟨x, hx, g⟩ := a.one
    simp only [DArr.axis, hx, List.getD_cons_zero] at b
    obtain ⟨y, rfl⟩ := List.length_eq_one_iff.1 b
    simpa [DArr.dim, DArr.axis, hx] using g
  obtain ⟨env, hR, he⟩ := blockwise_run [lSource, lRadec] [(lRadec, 2)]
    (x.arg [lSource, comp] :: pc.toList.map fun p => p.arg [lRadec])
    (fun env out => do
          np (← (fetch env x [lSource, comp] out).firsts 1) (← arrayOf (pc.map fun p => fetch env p [lRadec] out)))
    (fun l => if l = lSource then cs.sum else if l = comp then n else (pc.map fun p => p.dim 0).getD 0)
    (by simp [DArr.arg])
    (by
      intro a ha
      simp only [List.mem_cons, List.mem_map, Option.mem_toList] at ha
      rcases ha with rfl | ⟨p, hpp, rfl⟩
      · simp [DArr.arg, hc]
      · simp [DArr.arg, (hpc p hpp).1])
    (by
      intro a ha
      simp only [List.mem_cons, List.mem_map, Option.mem_toList] at ha
      rcases ha with rfl | ⟨p, hpp, rfl⟩
      · simp [DArr.arg, hc, gs, gr, hcomp.1]
      · have : pc = some p := hpp
        simp [DArr.arg, (hpc p hpp).1, (hpc p hpp).2, hne, Ne.symm hcomp.2, this])
  have e1 := hR.good (x.arg [lSource, comp]) (by simp) lSource (by simp [DArr.arg])
  have e2 := hR.contracted (x.arg [lSource, comp]) (by simp) comp (by simp [DArr.arg]) (by simp [hcomp])
  simp only [hcomp.1, if_false, if_true] at e2
  simp only [if_true] at e1
  have hch : [lSource, lRadec].map (outChunks [(lRadec, 2)] env) = [env lSource, [2]] := by
    simp [outChunks, pick, hne]
  have e3 : ∀ p ∈ pc, env lRadec = [p.dim 0] := by
    intro p hpp
    have hpp' : pc = some p := hpp
    have hmem : p.arg [lRadec] ∈ (x.arg [lSource, comp] :: pc.toList.map fun p => p.arg [lRadec]) := by simp [hpp']
    have hs := hR.unified.single (p.arg [lRadec]) hmem (lRadec, [p.dim 0]) (by simp [DArr.arg, (hpc p hpp).1]) (by
      intro c hc'
      obtain ⟨a, ha, h⟩ := mem_chunksFor.1 hc'
      simp only [List.mem_cons, List.mem_map, Option.mem_toList] at ha
      rcases ha with rfl | ⟨q, hq, rfl⟩
      · simp [DArr.arg, hc, hne, Ne.symm hcomp.2] at h
      · simp [DArr.arg, (hpc q hq).1] at h; simp [h])
    simpa [hne, Ne.symm hcomp.2, hpp'] using hs
  refine ⟨env lSource, n, e1.1, ?_, _, he, ?_, ?_⟩
  · simp [DArr.whole, hc, e1.2]
  · exact hch
  · intro j hj
    dsimp only
    have hb : IsBlock ([lSource, lRadec].map (outChunks [(lRadec, 2)] env)) [j, 0] := by
      rw [hch]
      simp [isBlock_cons, isBlock_nil, hj]
    have hbr : blk ([lSource, lRadec].zip [j, 0]) lRadec = 0 := by simp [blk, pick, hne']
    refine ⟨pc.map (part env ([lSource, lRadec].zip [j, 0]) [lRadec]), centre_part hp e3 hbr, ?_⟩
    rw [hR.fetch x [lSource, comp] 1 [j, 0] hb (by simp) (by simp [hc]) (by simp [hcomp])]
    have hg : arrayOf (pc.map fun p => fetch env p [lRadec] ([lSource, lRadec].zip [j, 0])) =
        .ok (pc.map (part env ([lSource, lRadec].zip [j, 0]) [lRadec])) := by
      cases pc with
      | none => rfl
      | some p =>
        have hh := hR.fetch p [lRadec] 0 [j, 0] hb (by simp) (by simp [(hpc p rfl).1]) (by simp)
        simp only [Option.map_some, arrayOf, hh]
        rfl
    rw [hg]
    simp [bind, Except.bind, part, blk, pick, Ne.symm hcomp.1, Ne.symm hcomp.2, e2, blockSize_single, blockOff_zero]

private theorem radecOf_error {pc : ℝ × ℝ} {l m n : ℝ} {e : PyErr} (h : radecOf pc l m n = .error e) :
    e = .zeroDivisionError := by
  unfold radecOf at h
  simp only at h
  split_ifs at h
  cases h
  rfl

/-- Sources one by one: a loop over the sources of a block does what the loop over all sources does with them. -/
private theorem agrees_loop {cs : List Nat} {l : Lazy Num} (hch : l.chunks = [cs, [2]])
    (g : Nat → Except PyErr (ℝ × Num)) (hg : ∀ s e, g s = .error e → e = .zeroDivisionError)
    (init : Nat → ℝ × Num)
    (arr : Nat → (Nat → ℝ × Num) → NArr Num)
    (harr : ∀ n f, (arr n f).shape = [n, 2] ∧ ∀ s, (arr n f).val [s, 0] = .val (f s).1 ∧ (arr n f).val [s, 1] = (f s).2)
    (hb : ∀ j < cs.length, l.block [j, 0] = (forRangeM (blockSize cs j) init (fillStep fun s => g (blockOff cs j + s))).map (arr (blockSize cs j))) :
    l.Agrees ((forRangeM cs.sum init (fillStep g)).map (arr cs.sum)) := by
  refine agrees_rows hch ?_ ?_
  · intro a ha
    cases hr : forRangeM cs.sum init (fillStep g) with
    | error e => rw [hr] at ha; cases ha
    | ok f =>
      rw [hr] at ha
      cases ha
      refine ⟨(harr _ _).1, fun j hj => ?_⟩
      have hall := (forRangeM_fill _ init _).1 f hr
      cases hbl : forRangeM (blockSize cs j) init (fillStep (fun s => g (blockOff cs j + s))) with
      | error e =>
        obtain ⟨s, hs, h⟩ := (forRangeM_fill _ init _).2 e hbl
        have := hall (blockOff cs j + s) (blockOff_lt hs)
        simp only [this] at h
        cases h
      | ok f' =>
        rw [hb j hj, hbl]
        refine ⟨_, rfl, (harr _ _).1, fun s hs c hc => ?_⟩
        have h1 := (forRangeM_fill _ init _).1 f' hbl s hs
        have h2 := hall (blockOff cs j + s) (blockOff_lt hs)
        rw [h1] at h2
        have h3 := Except.ok.inj h2
        match c, hc with
        | 0, _ => rw [((harr _ _).2 _).1, ((harr _ _).2 _).1, h3]
        | 1, _ => rw [((harr _ _).2 _).2, ((harr _ _).2 _).2, h3]
  · intro e ha
    cases hr : forRangeM cs.sum init (fillStep g) with
    | ok f => rw [hr] at ha; cases ha
    | error e' =>
      rw [hr] at ha
      cases ha
      obtain ⟨s, hs, h⟩ := (forRangeM_fill _ init _).2 e hr
      obtain ⟨j, r, hj, hr', rfl⟩ := exists_block cs s hs
      refine ⟨j, hj, ?_⟩
      rw [hb j hj]
      cases hbl : forRangeM (blockSize cs j) init (fillStep (fun s => g (blockOff cs j + s))) with
      | error e'' =>
        obtain ⟨s', -, h'⟩ := (forRangeM_fill _ init _).2 e'' hbl
        rw [hg _ _ h, hg _ _ h']
        rfl
      | ok f' =>
        have := (forRangeM_fill _ init _).1 f' hbl r hr'
        simp only [h] at this
        cases this

/-- **C113**: `lmn_to_radec` of dask arrays. -/
theorem C113_lmn_to_radec (lmn : DArr ℝ) (pc : Option (DArr ℝ)) (h : CoordArgs lmn pc) :
    ∃ l, daskLmnToRadec lmn pc = .ok l ∧ l.Agrees (npLmnToRadec lmn.whole (pc.map DArr.whole)) := by
  obtain ⟨cs, n, gs, hw, l, hl, hch, hb⟩ := direct_run lLmn (by decide) npLmnToRadec lmn pc h
  refine ⟨l, hl, ?_⟩
  have hne : ∀ c ∈ l.chunks, c ≠ [] := by
    rw [hch]; simp [gs.ne_nil]
  rw [hw]
  by_cases hn : n ≠ 3
  · have : npLmnToRadec ⟨[cs.sum, n], lmn.val⟩ (pc.map DArr.whole) = .error .valueError := by simp [npLmnToRadec, hn]
    rw [this]
    refine Lazy.agrees_error hne fun b hbk => ?_
    rw [hch, isBlock_two] at hbk
    obtain ⟨j, hj, rfl⟩ := hbk
    obtain ⟨pc', -, e2⟩ := hb j hj
    rw [e2]
    simp [npLmnToRadec, hn]
  · cases hpc : centreOf (pc.map DArr.whole) with
    | error e =>
      have : npLmnToRadec ⟨[cs.sum, n], lmn.val⟩ (pc.map DArr.whole) = .error e := by
        simp only [npLmnToRadec, if_neg hn, hpc]
      rw [this]
      refine Lazy.agrees_error hne fun b hbk => ?_
      rw [hch, isBlock_two] at hbk
      obtain ⟨j, hj, rfl⟩ := hbk
      obtain ⟨pc', e1, e2⟩ := hb j hj
      rw [e2]
      simp only [npLmnToRadec, if_neg hn, e1, hpc]
    | ok c =>
      have hloop : ∀ m x, lmnToRadec m n x c = forRangeM m (fun _ => (0, .nan))
          (fillStep fun s => radecOf (centre c) (x s).1 (x s).2.1 (x s).2.2) := by
        intro m x
        simp only [lmnToRadec, if_neg hn]
        congr 1
        funext s out
        simp only [fillStep]
        cases radecOf (centre c) (x s).1 (x s).2.1 (x s).2.2 <;> rfl
      have key := agrees_loop hch
        (fun s => radecOf (centre c) (lmn.val [s, 0]) (lmn.val [s, 1]) (lmn.val [s, 2])) (fun _ _ => radecOf_error)
        (fun _ => (0, Num.nan))
        (fun n f => ⟨[n, 2], fun i => match i with
          | [s, 0] => .val (f s).1
          | [s, _] => (f s).2
          | _ => .nan⟩)
        (fun n f => ⟨rfl, fun s => ⟨rfl, rfl⟩⟩)
        (by
          intro j hj
          obtain ⟨pc', e1, e2⟩ := hb j hj
          rw [e2]
          simp only [npLmnToRadec, if_neg hn, e1, hpc, hloop]
          simp only [NArr.triple, List.zipWith_cons_cons, List.zipWith_nil_right, Nat.zero_add]
          generalize forRangeM _ _ _ = r
          cases r <;> rfl)
      simp only [npLmnToRadec, if_neg hn, hpc, hloop]
      simp only [NArr.triple]
      generalize hR : forRangeM cs.sum _ _ = r at key ⊢
      cases r <;> exact key

/-- One source of `lm_to_radec`. -/
private noncomputable def lmSource (pc : Option (ℝ × ℝ)) (x : Nat → ℝ × ℝ) (s : Nat) : Except PyErr (ℝ × Num) :=
  match npSqrt (1 - (x s).1 ^ 2 - (x s).2 ^ 2) with
  | .nan => .ok (0, .nan)
  | .val n => radecOf (centre pc) (x s).1 (x s).2 n

/-- **C113**: `lm_to_radec` of dask arrays. -/
theorem C113_lm_to_radec (lm : DArr ℝ) (pc : Option (DArr ℝ)) (h : CoordArgs lm pc) :
    ∃ l, daskLmToRadec lm pc = .ok l ∧ l.Agrees (npLmToRadec lm.whole (pc.map DArr.whole)) := by
  obtain ⟨cs, n, gs, hw, l, hl, hch, hb⟩ := direct_run lLm (by decide) npLmToRadec lm pc h
  refine ⟨l, hl, ?_⟩
  have hne : ∀ c ∈ l.chunks, c ≠ [] := by
    rw [hch]; simp [gs.ne_nil]
  rw [hw]
  by_cases hn : n ≠ 2
  · have : npLmToRadec ⟨[cs.sum, n], lm.val⟩ (pc.map DArr.whole) = .error .valueError := by simp [npLmToRadec, hn]
    rw [this]
    refine Lazy.agrees_error hne fun b hbk => ?_
    rw [hch, isBlock_two] at hbk
    obtain ⟨j, hj, rfl⟩ := hbk
    obtain ⟨pc', -, e2⟩ := hb j hj
    rw [e2]
    simp [npLmToRadec, hn]
  · cases hpc : centreOf (pc.map DArr.whole) with
    | error e =>
      have : npLmToRadec ⟨[cs.sum, n], lm.val⟩ (pc.map DArr.whole) = .error e := by
        simp only [npLmToRadec, if_neg hn, hpc]
      rw [this]
      refine Lazy.agrees_error hne fun b hbk => ?_
      rw [hch, isBlock_two] at hbk
      obtain ⟨j, hj, rfl⟩ := hbk
      obtain ⟨pc', e1, e2⟩ := hb j hj
      rw [e2]
      simp only [npLmToRadec, if_neg hn, e1, hpc]
    | ok c =>
      have hloop : ∀ m x, lmToRadec m n x c = forRangeM m (fun _ => (0, .nan)) (fillStep (lmSource c x)) := by
        intro m x
        simp only [lmToRadec, if_neg hn]
        congr 1
        funext s out
        unfold fillStep lmSource
        cases npSqrt (1 - (x s).1 ^ 2 - (x s).2 ^ 2) with
        | nan => rfl
        | val n => simp only; cases radecOf (centre c) (x s).1 (x s).2 n <;> rfl
      have key := agrees_loop hch
        (lmSource c fun s => (lm.val [s, 0], lm.val [s, 1]))
        (by
          intro s e he
          unfold lmSource at he
          split at he
          · cases he
          · exact radecOf_error he)
        (fun _ => (0, Num.nan))
        (fun n f => ⟨[n, 2], fun i => match i with
          | [s, 0] => .val (f s).1
          | [s, _] => (f s).2
          | _ => .nan⟩)
        (fun n f => ⟨rfl, fun s => ⟨rfl, rfl⟩⟩)
        (by
          intro j hj
          obtain ⟨pc', e1, e2⟩ := hb j hj
          rw [e2]
          simp only [npLmToRadec, if_neg hn, e1, hpc, hloop]
          have hs : (fun s => lmSource c (fun s => (lm.val [s, 0], lm.val [s, 1])) (blockOff cs j + s)) =
              lmSource c (NArr.pair ⟨[blockSize cs j, n],
                fun i => lm.val (List.zipWith (fun x1 x2 => x1 + x2) [blockOff cs j, 0] i)⟩) := by
            funext s
            simp [lmSource, NArr.pair]
          rw [hs]
          generalize forRangeM _ _ _ = r
          cases r <;> rfl)
      simp only [npLmToRadec, if_neg hn, hpc, hloop]
      have hs : NArr.pair ⟨[cs.sum, n], lm.val⟩ = fun s => (lm.val [s, 0], lm.val [s, 1]) := rfl
      rw [hs]
      generalize hR : forRangeM cs.sum _ _ = r at key ⊢
      cases r <;> exact key

/-! ### components in more than one block -/

private theorem split_run (comp outL : Label) (h1 : comp ≠ lSource) (h2 : comp ≠ outL) (h3 : outL ≠ lSource) (k a : Nat)
    (rest cs : List Nat) (x : DArr ℝ) (hx : x.chunks = [cs, a :: rest]) (hg : GoodChunks cs)
    (hg' : GoodChunks (a :: rest)) (f : NArr ℝ → Except PyErr (NArr Num)) :
    ∃ l, (blockwise [lSource, outL] [(outL, k)] [x.arg [lSource, comp]] fun env out => do
        f (← (fetch env x [lSource, comp] out).firsts 1)) = .ok l ∧ l.chunks = [cs, [k]] ∧
      ∀ j < cs.length, ∃ v, l.block [j, 0] = f ⟨[blockSize cs j, a], v⟩ := by
  have c1 : chunksFor [x.arg [lSource, comp]] lSource = [cs] := by simp [chunksFor, DArr.arg, hx, h1]
  have c2 : chunksFor [x.arg [lSource, comp]] comp = [a :: rest] := by simp [chunksFor, DArr.arg, hx, Ne.symm h1]
  obtain ⟨env, hU, he⟩ := blockwise_ok [lSource, outL] [(outL, k)] [x.arg [lSource, comp]]
    (fun env out => do f (← (fetch env x [lSource, comp] out).firsts 1))
    (fun l => if l = lSource then cs.sum else (a :: rest).sum) (by simp [DArr.arg]) (by simp [DArr.arg, hx])
    (by
      intro a' ha p hp
      simp only [List.mem_singleton] at ha
      subst ha
      simp only [DArr.arg, hx, List.zip_cons_cons, List.zip_nil_right, List.mem_cons, List.not_mem_nil, or_false] at hp
      rcases hp with rfl | rfl
      · exact ⟨hg, by simp⟩
      · exact ⟨hg', by simp [h1]⟩)
  have e1 : env lSource = cs := hU.kept lSource cs (by simp [c1]) (by simp [c1])
  have e2 : env comp = a :: rest := hU.kept comp (a :: rest) (by simp [c2]) (by simp [c2])
  refine ⟨_, he, by simp [pick, h3, e1], fun j hj => ?_⟩
  dsimp only
  rw [fetch_eq hU x [lSource, comp] (by simp) (by simp [hx])]
  simp only [List.zip_cons_cons, List.zip_nil_right, nest, pick, if_true, List.map_cons, List.map_nil, e1, e2,
    Ne.symm h1, Ne.symm h2, if_false, pick_block hj, List.length_cons, List.range_succ_eq_map, Nest.firsts, Nest.item0,
    Nest.array, DArr.block, bind, Except.bind, List.nil_append, List.cons_append, List.zipWith_cons_cons,
    List.zipWith_nil_right]
  exact ⟨_, rfl⟩

/-- **C113**: with the two (three) components of the rows in several blocks nothing is computed: every block raises
`ValueError` (stated without a phase centre). -/
theorem C113_split_components (x : DArr ℝ) (cs cc : List Nat) (hx : x.chunks = [cs, cc]) (hg : GoodChunks cs)
    (hcc : GoodChunks cc) (hlong : 1 < cc.length) :
    (cc.sum = 2 → (∃ l, daskRadecToLmn x none = .ok l ∧ ∀ b, IsBlock l.chunks b → l.block b = .error .valueError) ∧
      (∃ l, daskRadecToLm x none = .ok l ∧ ∀ b, IsBlock l.chunks b → l.block b = .error .valueError) ∧
      (∃ l, daskLmToRadec x none = .ok l ∧ ∀ b, IsBlock l.chunks b → l.block b = .error .valueError)) ∧
    (cc.sum = 3 → ∃ l, daskLmnToRadec x none = .ok l ∧ ∀ b, IsBlock l.chunks b → l.block b = .error .valueError) := by
  have hpos := hcc.pos_of_long hlong
  match cc, hlong with
  | a :: a' :: rest, _ =>
    have ha : a < (a :: a' :: rest).sum := by
      have := hpos a' (by simp)
      simp; omega
    have key : ∀ (comp outL : Label), comp ≠ lSource → comp ≠ outL → outL ≠ lSource → ∀ (k : Nat)
        (f : NArr ℝ → Except PyErr (NArr Num)), (∀ n v, f ⟨[n, a], v⟩ = .error .valueError) →
        ∃ l, (blockwise [lSource, outL] [(outL, k)] [x.arg [lSource, comp]] fun env out => do
          f (← (fetch env x [lSource, comp] out).firsts 1)) = .ok l ∧
          ∀ b, IsBlock l.chunks b → l.block b = .error .valueError := by
      intro comp outL h1 h2 h3 k f hf
      obtain ⟨l, e1, e2, e3⟩ := split_run comp outL h1 h2 h3 k a (a' :: rest) cs x hx hg hcc f
      refine ⟨l, e1, fun b hb => ?_⟩
      rw [e2, isBlock_two] at hb
      obtain ⟨j, hj, rfl⟩ := hb
      obtain ⟨v, hv⟩ := e3 j hj
      rw [hv, hf]
    refine ⟨fun h => ⟨?_, ?_, ?_⟩, fun h => ?_⟩
    · exact key lRadec lLmn (by decide) (by decide) (by decide) 3 (fun r => npRadecToLmn r none) (by
        intro n v
        have : a ≠ 2 := by omega
        simp [npRadecToLmn, this])
    · exact key lRadec lLm (by decide) (by decide) (by decide) 2 (fun r => npRadecToLm r none) (by
        intro n v
        have : a ≠ 2 := by omega
        simp [npRadecToLm, this])
    · exact key lLm lRadec (by decide) (by decide) (by decide) 2 (fun r => npLmToRadec r none) (by
        intro n v
        have : a ≠ 2 := by omega
        simp [npLmToRadec, this])
    · exact key lLmn lRadec (by decide) (by decide) (by decide) 2 (fun r => npLmnToRadec r none) (by
        intro n v
        have : a ≠ 3 := by omega
        simp [npLmnToRadec, this])

/-- Five sources in blocks of two and three, with a phase centre: the hypotheses of the theorems above hold. -/
example : CoordArgs ⟨[[2, 3], [2]], fun _ => 0⟩ (some ⟨[[2]], fun _ => 0⟩) ∧
    ∀ p ∈ some (⟨[[2]], fun _ => 0⟩ : DArr ℝ), p.dim 0 = (⟨[[2, 3], [2]], fun _ => 0⟩ : DArr ℝ).dim 1 := by
  refine ⟨⟨⟨rfl, ?_⟩, rfl, ?_⟩, ?_⟩
  · simp [GoodChunks]
  · intro p hp
    cases hp
    exact ⟨⟨rfl, by simp [GoodChunks]⟩, rfl⟩
  · intro p hp
    cases hp
    rfl

/-- Four sources, components in two blocks: the hypotheses of `C113_split_components` hold. -/
example : GoodChunks [4] ∧ GoodChunks [1, 1] ∧ 1 < [1, 1].length ∧ [1, 1].sum = 2 := by
  simp [GoodChunks]

/-- **C113** What the functions of whole arrays are: each row of `(n, 2)` or `(n, 3)` numbers is a direction, the two numbers of the
phase centre are its right ascension and its declination, and rows of the result are the converted directions, or the exception of
the conversion is raised. -/
theorem C113_numpy (n : Nat) (x p : List Nat → ℝ) :
    (∀ f, radecToLmn 2 (fun s => (x [s, 0], x [s, 1])) (some (p [0], p [1])) = .ok f →
      ∃ a, npRadecToLmn ⟨[n, 2], x⟩ (some ⟨[2], p⟩) = .ok a ∧ a.shape = [n, 3] ∧
        ∀ s, a.val [s, 0] = .val (f s).1 ∧ a.val [s, 1] = .val (f s).2.1 ∧ a.val [s, 2] = (f s).2.2) ∧
    (∀ f, radecToLm 2 (fun s => (x [s, 0], x [s, 1])) (some (p [0], p [1])) = .ok f →
      ∃ a, npRadecToLm ⟨[n, 2], x⟩ (some ⟨[2], p⟩) = .ok a ∧ a.shape = [n, 2] ∧
        ∀ s, a.val [s, 0] = .val (f s).1 ∧ a.val [s, 1] = .val (f s).2) ∧
    (∀ f, lmnToRadec n 3 (fun s => (x [s, 0], x [s, 1], x [s, 2])) (some (p [0], p [1])) = .ok f →
      ∃ a, npLmnToRadec ⟨[n, 3], x⟩ (some ⟨[2], p⟩) = .ok a ∧ a.shape = [n, 2] ∧
        ∀ s, a.val [s, 0] = .val (f s).1 ∧ a.val [s, 1] = (f s).2) ∧
    (∀ f, lmToRadec n 2 (fun s => (x [s, 0], x [s, 1])) (some (p [0], p [1])) = .ok f →
      ∃ a, npLmToRadec ⟨[n, 2], x⟩ (some ⟨[2], p⟩) = .ok a ∧ a.shape = [n, 2] ∧
        ∀ s, a.val [s, 0] = .val (f s).1 ∧ a.val [s, 1] = (f s).2) ∧
    (∀ e, lmnToRadec n 3 (fun s => (x [s, 0], x [s, 1], x [s, 2])) (some (p [0], p [1])) = .error e →
      npLmnToRadec ⟨[n, 3], x⟩ (some ⟨[2], p⟩) = .error e) ∧
    (∀ e, lmToRadec n 2 (fun s => (x [s, 0], x [s, 1])) (some (p [0], p [1])) = .error e →
      npLmToRadec ⟨[n, 2], x⟩ (some ⟨[2], p⟩) = .error e) := by
  have hc : centreOf (some ⟨[2], p⟩) = .ok (some (p [0], p [1])) := by simp [centreOf]
  refine ⟨fun f h => ?_, fun f h => ?_, fun f h => ?_, fun f h => ?_, fun e h => ?_, fun e h => ?_⟩
  · have h' : radecToLmn 2 (NArr.pair ⟨[n, 2], x⟩) (some (p [0], p [1])) = .ok f := h
    exact ⟨_, by simp [npRadecToLmn, hc, h']; rfl, rfl, fun s => ⟨rfl, rfl, rfl⟩⟩
  · have h' : radecToLm 2 (NArr.pair ⟨[n, 2], x⟩) (some (p [0], p [1])) = .ok f := h
    exact ⟨_, by simp [npRadecToLm, hc, h']; rfl, rfl, fun s => ⟨rfl, rfl⟩⟩
  · have h' : lmnToRadec n 3 (NArr.triple ⟨[n, 3], x⟩) (some (p [0], p [1])) = .ok f := h
    exact ⟨_, by simp [npLmnToRadec, hc, h']; rfl, rfl, fun s => ⟨rfl, rfl⟩⟩
  · have h' : lmToRadec n 2 (NArr.pair ⟨[n, 2], x⟩) (some (p [0], p [1])) = .ok f := h
    exact ⟨_, by simp [npLmToRadec, hc, h']; rfl, rfl, fun s => ⟨rfl, rfl⟩⟩
  · have h' : lmnToRadec n 3 (NArr.triple ⟨[n, 3], x⟩) (some (p [0], p [1])) = .error e := h
    simp [npLmnToRadec, hc, h']
  · have h' : lmToRadec n 2 (NArr.pair ⟨[n, 2], x⟩) (some (p [0], p [1])) = .error e := h
    simp [npLmToRadec, hc, h']

end Verif.Dask
