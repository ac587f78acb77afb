/-
C114: terms of the RIME on dask arrays.
-/
import Verif.Dask.RimeLemmas
import Verif.Rime.PropsZernike

set_option autoImplicit false

namespace Verif.Dask

open Verif.Rime

variable {α : Type*}

/-- Hypotheses of `phase_delay`: the components of `lm` and `uvw` are in one block. -/
structure PhaseArgs (lm uvw frequency : DArr ℝ) : Prop where
  lmValid : lm.Valid 2
  uvwValid : uvw.Valid 2
  freqValid : frequency.Valid 1
  lmWhole : (lm.axis 1).length = 1
  uvwWhole : (uvw.axis 1).length = 1

/-- **C114**: `phase_delay` of dask arrays. -/
theorem C114_phase_delay (lm uvw frequency : DArr ℝ) (convention : String) (h : PhaseArgs lm uvw frequency) :
    ∃ l, daskPhaseDelay lm uvw frequency convention = .ok l ∧
      l.Agrees (npPhaseDelay lm.whole uvw.whole frequency.whole convention) := by
  obtain ⟨hl, hu, hf, hl1, hu1⟩ := h
  obtain ⟨cs, c2, hcl, gs, g2⟩ := hl.two
  obtain ⟨cr, c3, hcu, gr, g3⟩ := hu.two
  obtain ⟨cf, hcf, gf⟩ := hf.one
  simp only [DArr.axis, hcl, hcu, List.getD_cons_succ, List.getD_cons_zero] at hl1 hu1
  obtain ⟨n, rfl⟩ := List.length_eq_one_iff.1 hl1
  obtain ⟨m, rfl⟩ := List.length_eq_one_iff.1 hu1
  unfold daskPhaseDelay
  generalize hfun : (fun (env : Label → List Nat) (out : List (Label × Nat)) => do
    npPhaseDelay (← (fetch env lm [lSource, lLmc] out).firsts 1) (← (fetch env uvw [lRow, lUvwc] out).firsts 1)
      (← (fetch env frequency [lChan] out).firsts 0) convention) = f
  obtain ⟨env, hR, he⟩ := blockwise_axes [lSource, lRow, lChan] []
    [lm.arg [lSource, lLmc], uvw.arg [lRow, lUvwc], frequency.arg [lChan]] f
    (extents [(lSource, cs.sum), (lRow, cr.sum), (lChan, cf.sum), (lLmc, n), (lUvwc, m)])
    (by simp [DArr.arg])
    (by simp (decide := true) [DArr.arg, hcl, hcu, hcf, gs, gr, gf, g2, g3, extents, pick])
  have es := hR.good (lm.arg [lSource, lLmc]) (by simp) lSource (by simp [DArr.arg])
  have er := hR.good (uvw.arg [lRow, lUvwc]) (by simp) lRow (by simp [DArr.arg])
  have ef := hR.good (frequency.arg [lChan]) (by simp) lChan (by simp [DArr.arg])
  have el := hR.contracted (lm.arg [lSource, lLmc]) (by simp) lLmc (by simp [DArr.arg]) (by decide)
  have eu := hR.contracted (uvw.arg [lRow, lUvwc]) (by simp) lUvwc (by simp [DArr.arg]) (by decide)
  simp (decide := true) only [extents, pick, if_true, if_false, Option.getD_some] at es er ef el eu
  refine ⟨_, he, ?_⟩
  have hch : [lSource, lRow, lChan].map (outChunks [] env) = [env lSource, env lRow, env lChan] := by simp [outChunks, pick]
  have hblk : ∀ b, IsBlock [env lSource, env lRow, env lChan] b → ∃ i < (env lSource).length,
      ∃ j < (env lRow).length, ∃ k < (env lChan).length, b = [i, j, k] ∧ f env ([lSource, lRow, lChan].zip b) =
        npPhaseDelay ⟨[blockSize (env lSource) i, n], fun x => lm.val (List.zipWith (· + ·) [blockOff (env lSource) i, 0] x)⟩
          ⟨[blockSize (env lRow) j, m], fun x => uvw.val (List.zipWith (· + ·) [blockOff (env lRow) j, 0] x)⟩
          ⟨[blockSize (env lChan) k], fun x => frequency.val (List.zipWith (· + ·) [blockOff (env lChan) k] x)⟩
          convention := by
    intro b hb
    have hb' := hb
    simp only [isBlock_cons, isBlock_nil] at hb'
    rw [← hch] at hb
    obtain ⟨i, b', rfl, hi, j, b', rfl, hj, k, b', rfl, hk, rfl⟩ := hb'
    refine ⟨i, hi, j, hj, k, hk, rfl, ?_⟩
    rw [← hfun]
    dsimp only
    rw [hR.fetch lm [lSource, lLmc] 1 _ hb (by simp) (by simp [hcl]) (by decide),
      hR.fetch uvw [lRow, lUvwc] 1 _ hb (by simp) (by simp [hcu]) (by decide),
      hR.fetch frequency [lChan] 0 _ hb (by simp) (by simp [hcf]) (by decide)]
    simp (decide := true) [bind, Except.bind, part, blk, pick, el, eu, blockSize_single, blockOff_zero]
  simp only [hch]
  have hw : lm.whole = ⟨[(env lSource).sum, n], lm.val⟩ := by simp [DArr.whole, hcl, es.2]
  have hw2 : uvw.whole = ⟨[(env lRow).sum, m], uvw.val⟩ := by simp [DArr.whole, hcu, er.2]
  have hw3 : frequency.whole = ⟨[(env lChan).sum], frequency.val⟩ := by simp [DArr.whole, hcf, ef.2]
  rw [hw, hw2, hw3]
  refine Lazy.agrees_blocks (by simp [es.1.ne_nil, er.1.ne_nil, ef.1.ne_nil]) ?_ ?_
  · intro a ha
    simp only [npPhaseDelay] at ha
    split at ha
    · cases ha
    · split_ifs at ha
      cases ha
      simp
  · intro b hb
    obtain ⟨i, hi, j, hj, k, hk, rfl, e⟩ := hblk b hb
    simp only [e]
    simp only [npPhaseDelay, phaseDelay]
    cases hc : phaseConstant convention with
    | error e => exact rfl
    | ok c =>
      simp only [es.1.block_pos hi, er.1.block_pos hj]
      split_ifs with h1 h2
      · exact rfl
      · exact rfl
      · refine ⟨_, rfl, fun x hx => ?_⟩
        simp only [List.zipWith_cons_cons, List.zipWith_nil_left, isIndex_cons, isIndex_nil] at hx
        obtain ⟨s, x', rfl, hs, r, x'', rfl, hr, c, x', rfl, hc, rfl⟩ := hx
        simp [NArr.pair, NArr.triple]

/-- Hypotheses of `parallactic_angles`: positions and field centre are not split. -/
structure ParangleArgs (times pos fc : DArr ℝ) : Prop where
  timesValid : times.Valid 1
  posValid : pos.Valid 2
  fcValid : fc.Valid 1
  posWhole : (pos.axis 1).length = 1
  fcWhole : (fc.axis 0).length = 1

/-- **C114**: `parallactic_angles` of dask arrays (for the external libraries: with at least one time). -/
theorem C114_parallactic_angles (angle : String → ℝ → ℝ × ℝ × ℝ → ℝ × ℝ → ℝ) (times pos fc : DArr ℝ) (backend : String)
    (h : ParangleArgs times pos fc) (hpos : backend ≠ "test" → 0 < times.dim 0) :
    ∃ l, daskParallacticAngles angle times pos fc backend = .ok l ∧
      l.Agrees (npParallacticAngles angle times.whole pos.whole fc.whole backend) := by
  obtain ⟨ht, hp, hf, hp1, hf1⟩ := h
  obtain ⟨ct, hct, gt⟩ := ht.one
  obtain ⟨ca, c3, hcp, ga, g3⟩ := hp.two
  obtain ⟨cf, hcf, gf⟩ := hf.one
  simp only [DArr.axis, DArr.dim, hct, hcp, hcf, List.getD_cons_succ, List.getD_cons_zero] at hp1 hf1 hpos
  obtain ⟨n, rfl⟩ := List.length_eq_one_iff.1 hp1
  obtain ⟨m, rfl⟩ := List.length_eq_one_iff.1 hf1
  unfold daskParallacticAngles
  generalize hfun : (fun (env : Label → List Nat) (out : List (Label × Nat)) => do
    npParallacticAngles angle (← (fetch env times [lTime] out).firsts 0) (← (fetch env pos [lAnt, lXyz] out).firsts 1)
      (← (fetch env fc [lFc] out).firsts 1) backend) = f
  obtain ⟨env, hR, he⟩ := blockwise_axes [lTime, lAnt] [] [times.arg [lTime], pos.arg [lAnt, lXyz], fc.arg [lFc]] f
    (extents [(lTime, ct.sum), (lAnt, ca.sum), (lXyz, n), (lFc, m)])
    (by simp [DArr.arg])
    (by simp (decide := true) [DArr.arg, hct, hcp, hcf, gt, ga, gf, g3, extents, pick])
  have et := hR.good (times.arg [lTime]) (by simp) lTime (by simp [DArr.arg])
  have ea := hR.good (pos.arg [lAnt, lXyz]) (by simp) lAnt (by simp [DArr.arg])
  have ex := hR.contracted (pos.arg [lAnt, lXyz]) (by simp) lXyz (by simp [DArr.arg]) (by decide)
  have ef := hR.contracted (fc.arg [lFc]) (by simp) lFc (by simp [DArr.arg]) (by decide)
  simp (decide := true) only [extents, pick, if_true, if_false, Option.getD_some] at et ea ex ef
  refine ⟨_, he, ?_⟩
  have hch : [lTime, lAnt].map (outChunks [] env) = [env lTime, env lAnt] := by simp [outChunks, pick]
  have hw1 : times.whole = ⟨[(env lTime).sum], times.val⟩ := by simp [DArr.whole, hct, et.2]
  have hw2 : pos.whole = ⟨[(env lAnt).sum, n], pos.val⟩ := by simp [DArr.whole, hcp, ea.2]
  have hw3 : fc.whole = ⟨[m], fc.val⟩ := by simp [DArr.whole, hcf]
  simp only [hch]
  rw [hw1, hw2, hw3]
  have hpos' : backend ≠ "test" → (env lTime).sum ≠ 0 := fun hb => by have := hpos hb; omega
  refine Lazy.agrees_blocks (by simp [et.1.ne_nil, ea.1.ne_nil]) ?_ ?_
  · intro a ha
    simp only [npParallacticAngles] at ha
    split_ifs at ha with h1 h2 h3 h4 h5
    · cases ha; simp
    · exact absurd h5 (hpos' h3)
    · cases ha; simp
  · intro b hb
    have hb' := hb
    simp only [isBlock_cons, isBlock_nil] at hb'
    rw [← hch] at hb
    obtain ⟨i, b', rfl, hi, j, b', rfl, hj, rfl⟩ := hb'
    dsimp only
    rw [← hfun]
    dsimp only
    rw [hR.fetch times [lTime] 0 _ hb (by simp) (by simp [hct]) (by decide),
      hR.fetch pos [lAnt, lXyz] 1 _ hb (by simp) (by simp [hcp]) (by decide),
      hR.fetch fc [lFc] 1 _ hb (by simp) (by simp [hcf]) (by decide)]
    simp (decide := true) only [bind, Except.bind, part, blk, pick, ex, ef, blockSize_single, blockOff_zero, List.map_cons,
      List.map_nil, List.zip_cons_cons, List.zip_nil_right, if_true, if_false, Option.getD_some, Option.getD_none,
      npParallacticAngles]
    split_ifs with h1 h2 h3 h4 h5 h6 h7
    · exact rfl
    · refine ⟨_, rfl, fun x hx => ?_⟩
      simp only [List.zipWith_cons_cons, List.zipWith_nil_left, isIndex_cons, isIndex_nil] at hx
      obtain ⟨t, x', rfl, _, a, x'', rfl, _, rfl⟩ := hx
      simp
    · exact rfl
    · exact absurd h6 (hpos' h3)
    · have := (et.1.block_pos hi).2 (by omega)
      omega
    · have := (et.1.block_pos hi).1 (by omega)
      omega
    · refine ⟨_, rfl, fun x hx => ?_⟩
      simp only [List.zipWith_cons_cons, List.zipWith_nil_left, isIndex_cons, isIndex_nil] at hx
      obtain ⟨t, x', rfl, _, a, x'', rfl, _, rfl⟩ := hx
      simp [NArr.triple]
    · exact rfl

/-- Hypotheses of `transform_sources`: components are not split, axes with the same meaning have the same extent. -/
structure TransformArgs (lm pa pe scaling frequency : DArr ℝ) : Prop where
  lmValid : lm.Valid 2
  paValid : pa.Valid 2
  peValid : pe.Valid 3
  scalingValid : scaling.Valid 2
  freqValid : frequency.Valid 1
  lmWhole : (lm.axis 1).length = 1
  peWhole : (pe.axis 2).length = 1
  comps : pe.dim 2 = lm.dim 1
  times : pe.dim 0 = pa.dim 0
  ants : pe.dim 1 = pa.dim 1
  scalingAnts : scaling.dim 0 = pa.dim 1
  chans : scaling.dim 1 = frequency.dim 0

/-- **C114**: `transform_sources` of dask arrays. -/
theorem C114_transform_sources (lm pa pe scaling frequency : DArr ℝ) (h : TransformArgs lm pa pe scaling frequency) :
    ∃ l, daskTransformSources lm pa pe scaling frequency = .ok l ∧
      l.Agrees (npTransformSources lm.whole pa.whole pe.whole scaling.whole frequency.whole) := by
  obtain ⟨hl, hp, hpe, hsc, hf, hl1, hpe1, d1, d2, d3, d4, d5⟩ := h
  obtain ⟨cs, c2, hcl, gs, g2⟩ := hl.two
  obtain ⟨ct, ca, hcp, gt, ga⟩ := hp.two
  obtain ⟨ct', ca', c2', hcpe, gt', ga', g2'⟩ := hpe.three
  obtain ⟨ca'', cc, hcs, ga'', gc⟩ := hsc.two
  obtain ⟨cc', hcf, gc'⟩ := hf.one
  simp only [DArr.axis, DArr.dim, hcl, hcp, hcpe, hcs, hcf, List.getD_cons_succ, List.getD_cons_zero] at hl1 hpe1 d1 d2 d3 d4 d5
  obtain ⟨n, rfl⟩ := List.length_eq_one_iff.1 hl1
  obtain ⟨n', rfl⟩ := List.length_eq_one_iff.1 hpe1
  simp only [List.sum_cons, List.sum_nil, add_zero] at d1
  subst d1
  unfold daskTransformSources
  generalize hfun : (fun (env : Label → List Nat) (out : List (Label × Nat)) => do
    npTransformSources (← (fetch env lm [lSrc, lLm] out).firsts 1) (← (fetch env pa [lTime, lAnt] out).firsts 0)
      (← (fetch env pe [lTime, lAnt, lLm] out).firsts 1) (← (fetch env scaling [lAnt, lChan] out).firsts 0)
      (← (fetch env frequency [lChan] out).firsts 0)) = f
  obtain ⟨env, hR, he⟩ := blockwise_axes [lComp, lSrc, lTime, lAnt, lChan] [(lComp, 3)]
    [lm.arg [lSrc, lLm], pa.arg [lTime, lAnt], pe.arg [lTime, lAnt, lLm], scaling.arg [lAnt, lChan],
      frequency.arg [lChan]] f
    (extents [(lSrc, cs.sum), (lTime, ct.sum), (lAnt, ca.sum), (lChan, cc.sum), (lLm, n')])
    (by simp [DArr.arg])
    (by simp (decide := true) [DArr.arg, hcl, hcp, hcpe, hcs, hcf, gs, gt, ga, gt', ga', ga'', gc, gc', g2, extents, pick, d2, d3, d4, d5])
  have es := hR.good (lm.arg [lSrc, lLm]) (by simp) lSrc (by simp [DArr.arg])
  have et := hR.good (pa.arg [lTime, lAnt]) (by simp) lTime (by simp [DArr.arg])
  have ea := hR.good (pa.arg [lTime, lAnt]) (by simp) lAnt (by simp [DArr.arg])
  have ec := hR.good (scaling.arg [lAnt, lChan]) (by simp) lChan (by simp [DArr.arg])
  have el := hR.contracted (lm.arg [lSrc, lLm]) (by simp) lLm (by simp [DArr.arg]) (by decide)
  simp (decide := true) only [extents, pick, if_true, if_false, Option.getD_some] at es et ea ec el
  refine ⟨_, he, ?_⟩
  have hch : [lComp, lSrc, lTime, lAnt, lChan].map (outChunks [(lComp, 3)] env) =
      [[3], env lSrc, env lTime, env lAnt, env lChan] := by simp (decide := true) [outChunks, pick]
  have hw1 : lm.whole = ⟨[(env lSrc).sum, n'], lm.val⟩ := by simp [DArr.whole, hcl, es.2]
  have hw2 : pa.whole = ⟨[(env lTime).sum, (env lAnt).sum], pa.val⟩ := by simp [DArr.whole, hcp, et.2, ea.2]
  have hw3 : pe.whole = ⟨[(env lTime).sum, (env lAnt).sum, n'], pe.val⟩ := by simp [DArr.whole, hcpe, et.2, ea.2, d2, d3]
  have hw4 : scaling.whole = ⟨[(env lAnt).sum, (env lChan).sum], scaling.val⟩ := by simp [DArr.whole, hcs, ea.2, ec.2, d4]
  have hw5 : frequency.whole = ⟨[(env lChan).sum], frequency.val⟩ := by simp [DArr.whole, hcf, ec.2, d5]
  simp only [hch]
  rw [hw1, hw2, hw3, hw4, hw5]
  refine Lazy.agrees_blocks (by simp [es.1.ne_nil, et.1.ne_nil, ea.1.ne_nil, ec.1.ne_nil]) ?_ ?_
  · intro a ha
    simp only [npTransformSources] at ha
    split_ifs at ha
    cases ha; simp
  · intro b hb
    have hb' := hb
    simp only [isBlock_cons, isBlock_nil] at hb'
    rw [← hch] at hb
    obtain ⟨k, b', rfl, hk, i, b', rfl, hi, j, b', rfl, hj, a, b', rfl, ha, c, b', rfl, hc, rfl⟩ := hb'
    obtain rfl : k = 0 := by simpa using hk
    dsimp only
    rw [← hfun]
    dsimp only
    rw [hR.fetch lm [lSrc, lLm] 1 _ hb (by simp) (by simp [hcl]) (by decide),
      hR.fetch pa [lTime, lAnt] 0 _ hb (by simp) (by simp [hcp]) (by decide),
      hR.fetch pe [lTime, lAnt, lLm] 1 _ hb (by simp) (by simp [hcpe]) (by decide),
      hR.fetch scaling [lAnt, lChan] 0 _ hb (by simp) (by simp [hcs]) (by decide),
      hR.fetch frequency [lChan] 0 _ hb (by simp) (by simp [hcf]) (by decide)]
    simp (decide := true) only [bind, Except.bind, part, blk, pick, el, blockSize_single, blockOff_zero, List.map_cons,
      List.map_nil, List.zip_cons_cons, List.zip_nil_right, if_true, if_false, Option.getD_some, Option.getD_none,
      npTransformSources, List.cons.injEq, true_and, and_true, ne_eq, not_true_eq_false]
    by_cases hn : n' = 2
    · subst hn
      simp only [not_true_eq_false, if_false, and_false]
      refine ⟨_, rfl, fun x hx => ?_⟩
      simp only [List.zipWith_cons_cons, List.zipWith_nil_left, isIndex_cons, isIndex_nil] at hx
      obtain ⟨k, x', rfl, _, s, x', rfl, _, t, x', rfl, _, a, x', rfl, _, c, x', rfl, _, rfl⟩ := hx
      simp [NArr.pair, blockOff_zero]
    · simp only [hn, not_false_eq_true, if_true]
      exact rfl

/-- **C114**: `feed_rotation` of dask arrays with any number of axes. -/
theorem C114_feed_rotation (pa : DArr ℝ) (feedType : String) (n : Nat) (h : pa.Valid n) :
    daskFeedRotation pa false feedType = .error .valueError ∧
    ∃ l, daskFeedRotation pa true feedType = .ok l ∧ l.Agrees (npFeedRotation pa.whole true feedType) := by
  refine ⟨by simp [daskFeedRotation], ?_⟩
  obtain ⟨hlen, hg⟩ := h
  unfold daskFeedRotation
  dsimp only
  rw [if_neg (by simp)]
  set L := numberedLabels "pa" pa.chunks.length with hL
  generalize hfun : (fun (env : Label → List Nat) (out : List (Label × Nat)) => do
    npFeedRotation (← (fetch env pa L out).firsts 0) true feedType) = f
  have hmem : ∀ l ∈ L, l ≠ lCorr1 ∧ l ≠ lCorr2 := by
    intro l hl
    obtain ⟨i, _, rfl⟩ := mem_numberedLabels.1 hl
    simp [lCorr1, lCorr2]
  obtain ⟨env, hR, he⟩ := blockwise_axes (L ++ [lCorr1, lCorr2]) [(lCorr1, 2), (lCorr2, 2)] [pa.arg L] f
    (fun l => match l with | .numbered _ i => (pa.chunks.getD i []).sum | .name _ => 0)
    (by
      intro l hl
      simp only [List.mem_append, List.mem_cons, List.not_mem_nil, or_false] at hl
      rcases hl with hl | rfl | rfl
      · simp [DArr.arg, hl]
      · simp [DArr.arg]
      · simp [DArr.arg])
    (by
      simp only [List.mem_singleton, forall_eq, DArr.arg]
      refine forall₂_numbered "pa" _ _ fun i hi => ⟨hg _ (List.getElem_mem _), ?_, ?_⟩
      · simp [List.getD_eq_getElem?_getD, hi]
      · exact Or.inl (List.mem_append_left _ (mem_numberedLabels.2 ⟨i, hi, rfl⟩)))
  refine ⟨_, he, ?_⟩
  have hlen2 : L.length = pa.chunks.length := numberedLabels_length _ _
  have hsum : (L.map env).map List.sum = pa.chunks.map List.sum := by
    apply List.ext_getElem (by simp [hlen2])
    intro i h1 h2
    have hi : i < pa.chunks.length := by simpa using h2
    have := (hR.good (pa.arg L) (by simp) (.numbered "pa" i) (mem_numberedLabels.2 ⟨i, hi, rfl⟩)).2
    simp only [List.getElem_map, hL, numberedLabels, List.getElem_range]
    rw [this]
    simp [List.getD_eq_getElem?_getD, hi]
  have hch : (L ++ [lCorr1, lCorr2]).map (outChunks [(lCorr1, 2), (lCorr2, 2)] env) = L.map env ++ [[2], [2]] := by
    rw [List.map_append]
    congr 1
    · apply List.map_congr_left
      intro l hl
      simp [outChunks, pick, Ne.symm (hmem l hl).1, Ne.symm (hmem l hl).2]
  simp only [hch]
  have hnod : (L ++ [lCorr1, lCorr2]).Nodup := by
    rw [List.nodup_append]
    refine ⟨numberedLabels_nodup _ _, by decide, ?_⟩
    intro a ha b hb
    simp only [List.mem_cons, List.not_mem_nil, or_false] at hb
    rcases hb with rfl | rfl
    · exact (hmem a ha).1
    · exact (hmem a ha).2
  have hshape : pa.whole.shape = (L.map env).map List.sum := by rw [hsum]; rfl
  refine Lazy.agrees_blocks ?_ ?_ ?_
  · intro c hc
    simp only [List.mem_append, List.mem_map, List.mem_cons, List.not_mem_nil, or_false] at hc
    rcases hc with ⟨l, hl, rfl⟩ | rfl | rfl
    · exact (hR.good (pa.arg L) (by simp) l hl).1.ne_nil
    · simp
    · simp
  · intro a ha
    simp only [npFeedRotation] at ha
    split_ifs at ha
    cases ha
    simp [hshape]
  · intro b hb
    have hb' := hb
    rw [isBlock_append] at hb'
    obtain ⟨b1, b2, rfl, hb1, hb2⟩ := hb'
    simp only [isBlock_cons, isBlock_nil, List.length_singleton, Nat.lt_one_iff] at hb2
    obtain ⟨_, _, rfl, rfl, _, _, rfl, rfl, rfl⟩ := hb2
    rw [← hch] at hb
    have hbl := hb1.length
    have hz := blk_zip (L ++ [lCorr1, lCorr2]) (b1 ++ [0, 0]) hnod (by simp [hbl])
    rw [List.map_append] at hz
    have hz1 := (List.append_inj hz (by simp [hbl])).1
    dsimp only
    rw [← hfun]
    dsimp only
    rw [hR.fetch pa L 0 _ hb (by simp) (by simp [hlen2]) (by
      rw [List.countP_eq_zero]; intro l hl; simp [hl])]
    simp only [bind, Except.bind]
    rw [part_eq, hz1]
    have hzl : (List.zipWith blockSize (L.map env) b1).length = L.length := by simp [hbl]
    have hwl : pa.whole.shape.length = L.length := by simp [hshape]
    have hnil : List.zipWith blockSize (L.map env) b1 = [] ↔ pa.whole.shape = [] := by
      rw [← List.length_eq_zero_iff, ← List.length_eq_zero_iff, hzl, hwl]
    unfold npFeedRotation
    simp only [Bool.true_eq_false, if_false, hnil]
    split_ifs with h1 h2
    · exact rfl
    · exact rfl
    · have hs : List.zipWith blockSize (L.map env ++ [[2], [2]]) (b1 ++ [0, 0]) =
          List.zipWith blockSize (L.map env) b1 ++ [2, 2] := by
        rw [List.zipWith_append (by simp [hbl])]; rfl
      have ho : List.zipWith blockOff (L.map env ++ [[2], [2]]) (b1 ++ [0, 0]) =
          List.zipWith blockOff (L.map env) b1 ++ [0, 0] := by
        rw [List.zipWith_append (by simp [hbl])]; rfl
      rw [hs, ho]
      refine ⟨_, rfl, fun x hx => ?_⟩
      rw [isIndex_append] at hx
      obtain ⟨x1, x2, rfl, hx1, hx2⟩ := hx
      simp only [isIndex_cons, isIndex_nil] at hx2
      obtain ⟨p, _, rfl, hp, q, _, rfl, hq, rfl⟩ := hx2
      have hxl : x1.length = L.length := by rw [hx1.length, hzl]
      have hol : (List.zipWith blockOff (L.map env) b1).length = x1.length := by simp [hbl, hxl]
      rw [List.zipWith_append hol]
      have hwl' : (List.zipWith (· + ·) (List.zipWith blockOff (L.map env) b1) x1).length = L.length := by simp [hbl, hxl]
      simp only [hzl, hwl]
      rw [← hxl, List.take_left]
      simp only [List.zipWith_cons_cons, List.zipWith_nil_left, zero_add]
      rw [show x1.length = (List.zipWith (· + ·) (List.zipWith blockOff (L.map env) b1) x1).length by rw [hwl', hxl],
        List.take_left]
      have e : ∀ (y : List Nat) (k : Nat), (y ++ [p, q]).getD (y.length + k) 0 = [p, q].getD k 0 := by
        intro y k
        simp [List.getD_eq_getElem?_getD, List.getElem?_append_right]
      have e0 : ∀ (y : List Nat), (y ++ [p, q]).getD y.length 0 = p := fun y => by simp
      have e1 : ∀ (y : List Nat), (y ++ [p, q]).getD (y.length + 1) 0 = q := fun y => e y 1
      rw [e0, e1, hwl', ← hxl, e0, e1]
      rfl

/-- Hypotheses of `beam_cube_dde`: the beam, its frequencies and extents are in one block each, so are the components of
`lm`, `point_errors` and `antenna_scaling`, and axes with the same meaning have the same extent. -/
structure BeamArgs (beam : DArr ℂ) (ext freqMap lm pa pe scaling frequency : DArr ℝ) (ncorr : Nat) : Prop where
  beamValid : beam.Valid (3 + ncorr)
  extValid : ext.Valid 2
  mapValid : freqMap.Valid 1
  lmValid : lm.Valid 2
  paValid : pa.Valid 2
  peValid : pe.Valid 4
  scalingValid : scaling.Valid 3
  freqValid : frequency.Valid 1
  beamWhole : ∀ c ∈ beam.chunks, c.length = 1
  extWhole : ∀ c ∈ ext.chunks, c.length = 1
  mapWhole : ∀ c ∈ freqMap.chunks, c.length = 1
  lmWhole : (lm.axis 1).length = 1
  peWhole : (pe.axis 3).length = 1
  scalingWhole : (scaling.axis 2).length = 1
  nud : freqMap.dim 0 = beam.dim 2
  times : pe.dim 0 = pa.dim 0
  ants : pe.dim 1 = pa.dim 1
  peChans : pe.dim 2 = frequency.dim 0
  scalingAnts : scaling.dim 0 = pa.dim 1
  scalingChans : scaling.dim 1 = frequency.dim 0

/-- **C114**: `beam_cube_dde` of dask arrays, any number of correlation axes. -/
theorem C114_beam_cube_dde (beam : DArr ℂ) (ext freqMap lm pa pe scaling frequency : DArr ℝ) (ncorr : Nat)
    (h : BeamArgs beam ext freqMap lm pa pe scaling frequency ncorr) :
    ∃ l, daskBeamCubeDde beam ext freqMap lm pa pe scaling frequency = .ok l ∧
      l.Agrees (npBeamCubeDde beam.whole ext.whole freqMap.whole lm.whole pa.whole pe.whole scaling.whole
        frequency.whole) := by
  obtain ⟨hb, hx, hm, hl, hp, hpe, hsc, hf, wb, wx, wm, wl, wpe, ws, d1, d2, d3, d4, d5, d6⟩ := h
  obtain ⟨cs, c2, hcl, gs, g2⟩ := hl.two
  obtain ⟨ct, ca, hcp, gt, ga⟩ := hp.two
  obtain ⟨ct', ca', cc', c3, hcpe, gt', ga', gc', g3⟩ := hpe.four
  obtain ⟨ca'', cc'', c4, hcs, ga'', gc'', g4⟩ := hsc.three
  obtain ⟨cc, hcf, gc⟩ := hf.one
  obtain ⟨x1, x2, hcx, gx1, gx2⟩ := hx.two
  obtain ⟨cn', hcm, gn'⟩ := hm.one
  obtain ⟨cl, cm, cn, ck, hcb, gl, gm, gn, gk⟩ : ∃ a b c l, beam.chunks = a :: b :: c :: l ∧ GoodChunks a ∧
      GoodChunks b ∧ GoodChunks c ∧ ∀ d ∈ l, GoodChunks d := by
    obtain ⟨h1, h2⟩ := hb
    match hc : beam.chunks, h1 with
    | a :: b :: c :: l, _ =>
      exact ⟨a, b, c, l, rfl, h2 a (by simp [hc]), h2 b (by simp [hc]), h2 c (by simp [hc]), fun d hd => h2 d (by simp [hc, hd])⟩
    | [], h => simp at h; omega
    | [_], h => simp at h; omega
    | [_, _], h => simp at h; omega
  have hone : ∀ {α : Type} (d : DArr α), (∀ c ∈ d.chunks, c.length = 1) → d.oneBlock = true := by
    intro α d hd
    simpa [DArr.oneBlock] using hd
  have o1 := hone _ wb
  have o2 := hone _ wx
  have o3 := hone _ wm
  simp only [hcb, hcx, hcm, List.mem_cons, List.not_mem_nil, forall_eq_or_imp, or_false, forall_eq] at wb wx wm
  simp only [DArr.axis, DArr.dim, hcl, hcp, hcpe, hcs, hcf, hcm, hcb, List.getD_cons_succ, List.getD_cons_zero] at wl wpe ws d1 d2 d3 d4 d5 d6
  obtain ⟨wb1, wb2, wb3, wb4⟩ := wb
  obtain ⟨n, rfl⟩ := List.length_eq_one_iff.1 wl
  obtain ⟨n3, rfl⟩ := List.length_eq_one_iff.1 wpe
  obtain ⟨n4, rfl⟩ := List.length_eq_one_iff.1 ws
  obtain ⟨lw, rfl⟩ := List.length_eq_one_iff.1 wb1
  obtain ⟨mh, rfl⟩ := List.length_eq_one_iff.1 wb2
  obtain ⟨nud, rfl⟩ := List.length_eq_one_iff.1 wb3
  obtain ⟨y1, rfl⟩ := List.length_eq_one_iff.1 wx.1
  obtain ⟨y2, rfl⟩ := List.length_eq_one_iff.1 wx.2
  obtain ⟨nud', rfl⟩ := List.length_eq_one_iff.1 wm
  simp only [List.sum_cons, List.sum_nil, add_zero] at d1
  subst d1
  unfold daskBeamCubeDde
  rw [if_neg (by simp [o1]), if_neg (by simp [o3]), if_neg (by simp [o2])]
  dsimp only
  rw [show (beam.chunks.drop 3) = ck by rw [hcb]; rfl]
  set C := numberedLabels "corr" ck.length with hC
  have hCm : ∀ l ∈ C, ∃ i < ck.length, l = .numbered "corr" i := fun l hl => mem_numberedLabels.1 hl
  generalize hfun : (fun (env : Label → List Nat) (out : List (Label × Nat)) => do
      npBeamCubeDde (← (fetch env beam ([lLw, lMh, lNud] ++ C) out).firsts 3) (← (fetch env ext [lBeamLm, lBeamExt] out).firsts 2)
        (← (fetch env freqMap [lNud] out).firsts 1) (← (fetch env lm [lSource, lSourceComp] out).firsts 1)
        (← (fetch env pa [lTime, lAnt] out).firsts 0) (← (fetch env pe [lTime, lAnt, lChan, lPtComp] out).firsts 1)
        (← (fetch env scaling [lAnt, lChan, lScaleComp] out).firsts 1) (← (fetch env frequency [lChan] out).firsts 0)) = f
  obtain ⟨env, hR, he⟩ := blockwise_axes ([lSource, lTime, lAnt, lChan] ++ C) []
      [beam.arg ([lLw, lMh, lNud] ++ C), ext.arg [lBeamLm, lBeamExt], freqMap.arg [lNud], lm.arg [lSource, lSourceComp],
        pa.arg [lTime, lAnt], pe.arg [lTime, lAnt, lChan, lPtComp], scaling.arg [lAnt, lChan, lScaleComp],
        frequency.arg [lChan]] f
    (extentsN [(lSource, cs.sum), (lTime, ct.sum), (lAnt, ca.sum), (lChan, cc.sum), (lLw, lw), (lMh, mh), (lNud, nud'),
        (lBeamLm, y1), (lBeamExt, y2), (lSourceComp, n), (lPtComp, n3), (lScaleComp, n4)] ck)
    (by
      intro l hl
      left
      rw [List.mem_append] at hl
      rcases hl with hl | hl
      · simp only [List.mem_cons, List.not_mem_nil, or_false] at hl
        rcases hl with rfl | rfl | rfl | rfl
        · exact ⟨lm.arg [lSource, lSourceComp], by simp, by simp [DArr.arg]⟩
        · exact ⟨pa.arg [lTime, lAnt], by simp, by simp [DArr.arg]⟩
        · exact ⟨pa.arg [lTime, lAnt], by simp, by simp [DArr.arg]⟩
        · exact ⟨frequency.arg [lChan], by simp, by simp [DArr.arg]⟩
      · exact ⟨beam.arg ([lLw, lMh, lNud] ++ C), by simp, by simp [DArr.arg, hl]⟩)
    (by
      intro a ha
      simp only [List.mem_cons, List.not_mem_nil, or_false] at ha
      rcases ha with rfl | rfl | rfl | rfl | rfl | rfl | rfl | rfl
      · simp only [DArr.arg, hcb, List.cons_append, List.nil_append, List.forall₂_cons]
        refine ⟨⟨gl, ?_, by simp⟩, ⟨gm, ?_, by simp⟩, ⟨gn, ?_, by simp⟩, numbered_axes (outLabels := [lSource, lTime, lAnt, lChan]) gk⟩ <;>
        simp (decide := true) [extentsN_name, extents, pick]
      all_goals
        simp (decide := true) [DArr.arg, hcx, hcm, hcl, hcp, hcpe, hcs, hcf, extentsN_name, extents, pick, gx1, gx2, gn', gs,
          g2, gt, ga, gt', ga', gc', g3, ga'', gc'', g4, gc, d2, d3, d4, d5, d6])
  have es := hR.good (lm.arg [lSource, lSourceComp]) (by simp) lSource (by simp [DArr.arg])
  have et := hR.good (pa.arg [lTime, lAnt]) (by simp) lTime (by simp [DArr.arg])
  have ea := hR.good (pa.arg [lTime, lAnt]) (by simp) lAnt (by simp [DArr.arg])
  have ec := hR.good (frequency.arg [lChan]) (by simp) lChan (by simp [DArr.arg])
  have ek : ∀ i < ck.length, GoodChunks (env (.numbered "corr" i)) ∧ (env (.numbered "corr" i)).sum = (ck.getD i []).sum := by
    intro i hi
    exact hR.good (beam.arg ([lLw, lMh, lNud] ++ C)) (by simp) _
      (by simp only [DArr.arg]; exact List.mem_append_right _ (mem_numberedLabels.2 ⟨i, hi, rfl⟩))
  have ctr := hR.contracted
  have e1 := ctr (beam.arg ([lLw, lMh, lNud] ++ C)) (by simp) lLw (by simp [DArr.arg])
    (by rw [mem_append_numbered (by decide)]; decide)
  have e2 := ctr (beam.arg ([lLw, lMh, lNud] ++ C)) (by simp) lMh (by simp [DArr.arg])
    (by rw [mem_append_numbered (by decide)]; decide)
  have e3 := ctr (freqMap.arg [lNud]) (by simp) lNud (by simp [DArr.arg])
    (by rw [mem_append_numbered (by decide)]; decide)
  have e4 := ctr (ext.arg [lBeamLm, lBeamExt]) (by simp) lBeamLm (by simp [DArr.arg])
    (by rw [mem_append_numbered (by decide)]; decide)
  have e5 := ctr (ext.arg [lBeamLm, lBeamExt]) (by simp) lBeamExt (by simp [DArr.arg])
    (by rw [mem_append_numbered (by decide)]; decide)
  have e6 := ctr (lm.arg [lSource, lSourceComp]) (by simp) lSourceComp (by simp [DArr.arg])
    (by rw [mem_append_numbered (by decide)]; decide)
  have e7 := ctr (pe.arg [lTime, lAnt, lChan, lPtComp]) (by simp) lPtComp (by simp [DArr.arg])
    (by rw [mem_append_numbered (by decide)]; decide)
  have e8 := ctr (scaling.arg [lAnt, lChan, lScaleComp]) (by simp) lScaleComp (by simp [DArr.arg])
    (by rw [mem_append_numbered (by decide)]; decide)
  simp (decide := true) only [extentsN_name, extents, pick, if_true, if_false, Option.getD_some] at es et ea ec e1 e2 e3 e4 e5 e6 e7 e8
  refine ⟨_, he, ?_⟩
  have hch : ([lSource, lTime, lAnt, lChan] ++ C).map (outChunks [] env) =
      [env lSource, env lTime, env lAnt, env lChan] ++ C.map env := by
    simp [outChunks, pick]
  simp only [hch]
  have hw1 : beam.whole = ⟨lw :: mh :: nud' :: (C.map env).map List.sum, beam.val⟩ := by
    rw [hC, numbered_sums fun i hi => (ek i hi).2]
    simp [DArr.whole, hcb]
  have hw2 : lm.whole = ⟨[(env lSource).sum, n], lm.val⟩ := by simp [DArr.whole, hcl, es.2]
  have hw3 : pa.whole = ⟨[(env lTime).sum, (env lAnt).sum], pa.val⟩ := by simp [DArr.whole, hcp, et.2, ea.2]
  have hw4 : frequency.whole = ⟨[(env lChan).sum], frequency.val⟩ := by simp [DArr.whole, hcf, ec.2]
  rw [hw1, hw2, hw3, hw4]
  refine Lazy.agrees_blocks ?_ ?_ ?_
  · intro c hc
    simp only [List.mem_append, List.mem_map, List.mem_cons, List.not_mem_nil, or_false] at hc
    rcases hc with (rfl | rfl | rfl | rfl) | ⟨l, hl, rfl⟩
    · exact es.1.ne_nil
    · exact et.1.ne_nil
    · exact ea.1.ne_nil
    · exact ec.1.ne_nil
    · obtain ⟨i, hi, rfl⟩ := hCm l hl
      exact (ek i hi).1.ne_nil
  · intro a ha
    simp only [npBeamCubeDde] at ha
    split_ifs at ha
    cases ha
    simp
  · intro b hb
    have hb' := hb
    rw [isBlock_append] at hb'
    obtain ⟨b1, b2, rfl, hb1, hb2⟩ := hb'
    simp only [isBlock_cons, isBlock_nil] at hb1
    obtain ⟨i, b', rfl, hi, j, b', rfl, hj, a, b', rfl, ha, c, b', rfl, hc, rfl⟩ := hb1
    rw [← hch] at hb
    have hbl : b2.length = ck.length := by rw [hb2.length]; simp [hC, numberedLabels]
    have hz := blk_numbered (ls := [lSource, lTime, lAnt, lChan]) (name := "corr") (b1 := [i, j, a, c]) (by decide)
      (by decide) rfl hbl
    rw [← hC] at hz
    have hnone : ∀ l, l.isName = true → l ∉ [lSource, lTime, lAnt, lChan] →
        blk (([lSource, lTime, lAnt, lChan] ++ C).zip ([i, j, a, c] ++ b2)) l = 0 := by
      intro l h1 h2
      unfold blk
      rw [pick_zip_none _ _ _ (by rw [mem_append_numbered h1]; exact h2)]
      rfl
    dsimp only
    rw [← hfun]
    dsimp only
    have hcnt : C.countP (fun l => decide (l ∉ [lSource, lTime, lAnt, lChan] ++ C)) = 0 := by
      rw [List.countP_eq_zero]; intro l hl; simp [hl]
    have hcntn : ∀ ls : List Label, (∀ l ∈ ls, l.isName = true) →
        ls.countP (fun l => decide (l ∉ [lSource, lTime, lAnt, lChan] ++ C)) =
        ls.countP (fun l => decide (l ∉ [lSource, lTime, lAnt, lChan])) := by
      intro ls h1
      apply List.countP_congr
      intro l hl
      simp only [hC, mem_append_numbered (h1 l hl)]
    rw [hR.fetch beam ([lLw, lMh, lNud] ++ C) 3 _ hb (by simp) (by simp [hcb, hC, numberedLabels])
        (by rw [List.countP_append, hcnt, hcntn _ (by decide)]; decide),
      hR.fetch ext [lBeamLm, lBeamExt] 2 _ hb (by simp) (by simp [hcx]) (by rw [hcntn _ (by decide)]; decide),
      hR.fetch freqMap [lNud] 1 _ hb (by simp) (by simp [hcm]) (by rw [hcntn _ (by decide)]; decide),
      hR.fetch lm [lSource, lSourceComp] 1 _ hb (by simp) (by simp [hcl]) (by rw [hcntn _ (by decide)]; decide),
      hR.fetch pa [lTime, lAnt] 0 _ hb (by simp) (by simp [hcp]) (by rw [hcntn _ (by decide)]; decide),
      hR.fetch pe [lTime, lAnt, lChan, lPtComp] 1 _ hb (by simp) (by simp [hcpe]) (by rw [hcntn _ (by decide)]; decide),
      hR.fetch scaling [lAnt, lChan, lScaleComp] 1 _ hb (by simp) (by simp [hcs]) (by rw [hcntn _ (by decide)]; decide),
      hR.fetch frequency [lChan] 0 _ hb (by simp) (by simp [hcf]) (by rw [hcntn _ (by decide)]; decide)]
    have hpb : part env (([lSource, lTime, lAnt, lChan] ++ C).zip ([i, j, a, c] ++ b2)) ([lLw, lMh, lNud] ++ C) beam =
        ⟨lw :: mh :: nud' :: List.zipWith blockSize (C.map env) b2,
          fun x => beam.val (List.zipWith (· + ·) (0 :: 0 :: 0 :: List.zipWith blockOff (C.map env) b2) x)⟩ := by
      rw [part_eq]
      simp only [List.map_append, hz, List.map_cons, List.map_nil]
      rw [hnone lLw (by decide) (by decide), hnone lMh (by decide) (by decide), hnone lNud (by decide) (by decide), e1, e2, e3]
      simp [blockSize_single, blockOff_zero]
    rw [hpb]
    have p1 : blk (([lSource, lTime, lAnt, lChan] ++ C).zip ([i, j, a, c] ++ b2)) lSource = i := by
      simp (decide := true) [blk, pick]
    have p2 : blk (([lSource, lTime, lAnt, lChan] ++ C).zip ([i, j, a, c] ++ b2)) lTime = j := by
      simp (decide := true) [blk, pick]
    have p3 : blk (([lSource, lTime, lAnt, lChan] ++ C).zip ([i, j, a, c] ++ b2)) lAnt = a := by
      simp (decide := true) [blk, pick]
    have p4 : blk (([lSource, lTime, lAnt, lChan] ++ C).zip ([i, j, a, c] ++ b2)) lChan = c := by
      simp (decide := true) [blk, pick]
    simp (decide := true) only [bind, Except.bind, part, List.map_cons, List.map_nil, p1, p2, p3, p4, npBeamCubeDde,
      hnone lBeamLm rfl (by decide), hnone lBeamExt rfl (by decide), hnone lNud rfl (by decide),
      hnone lSourceComp rfl (by decide), hnone lPtComp rfl (by decide), hnone lScaleComp rfl (by decide),
      blockOff_zero]
    split_ifs with h1
    · exact rfl
    · refine ⟨_, by rw [List.zipWith_append (by simp)]; rfl, fun x hx => ?_⟩
      rw [List.zipWith_append (by simp), isIndex_append] at hx
      obtain ⟨x1, x2, rfl, hx1, hx2⟩ := hx
      simp only [List.zipWith_cons_cons, List.zipWith_nil_left, isIndex_cons, isIndex_nil] at hx1
      obtain ⟨s, x', rfl, _, t, x', rfl, _, q, x', rfl, _, f', x', rfl, _, rfl⟩ := hx1
      rw [List.zipWith_append (by simp)]
      simp [NArr.pair, DArr.whole]

/-- Hypotheses of `zernike_dde`: coordinates and polynomials are not split, axes with the same meaning have the same
extent. -/
structure ZernikeArgs (coords : DArr ℝ) (coeffs : DArr ℂ) (nollIndex : DArr Nat) (ncorr : Nat) : Prop where
  coordsValid : coords.Valid 5
  coeffsValid : coeffs.Valid (2 + ncorr + 1)
  nollValid : nollIndex.Valid (2 + ncorr + 1)
  coordsWhole : (coords.axis 0).length = 1
  coeffsWhole : (coeffs.axis (2 + ncorr)).length = 1
  nollWhole : (nollIndex.axis (2 + ncorr)).length = 1
  ants : coeffs.dim 0 = coords.dim 3
  chans : coeffs.dim 1 = coords.dim 4
  noll : nollIndex.whole.shape = coeffs.whole.shape

private theorem coeffs_chunks {d : DArr α} {n : Nat} (h : d.Valid (2 + n + 1)) (h1 : (d.axis (2 + n)).length = 1) :
    ∃ a c ck p, d.chunks = a :: c :: (ck ++ [[p]]) ∧ ck.length = n ∧ GoodChunks a ∧ GoodChunks c ∧
      (∀ x ∈ ck, GoodChunks x) ∧ GoodChunks [p] := by
  obtain ⟨h2, h3⟩ := h
  obtain ⟨a, c, l, hl⟩ : ∃ a c l, d.chunks = a :: c :: l := by
    match hc : d.chunks, h2 with
    | a :: c :: l, _ => exact ⟨a, c, l, rfl⟩
    | [], h => simp at h
    | [_], h => simp at h
  have hll : l.length = n + 1 := by rw [hl] at h2; simp at h2; omega
  have hne : l ≠ [] := by intro h; simp [h] at hll
  have hx := List.dropLast_append_getLast hne
  have hax : d.axis (2 + n) = l.getLast hne := by
    simp only [DArr.axis, hl]
    rw [show 2 + n = n + 1 + 1 by omega, List.getD_cons_succ, List.getD_cons_succ, List.getLast_eq_getElem]
    simp [List.getD_eq_getElem?_getD, hll]
  rw [hax] at h1
  obtain ⟨p, hp⟩ := List.length_eq_one_iff.1 h1
  rw [hp] at hx
  refine ⟨a, c, l.dropLast, p, by rw [hl, hx], by simp [hll], h3 a (by simp [hl]), h3 c (by simp [hl]), ?_, ?_⟩
  · intro x hx; exact h3 x (by rw [hl]; simp [List.mem_of_mem_dropLast hx])
  · exact h3 _ (by rw [hl, ← hx]; simp)

/-- **C114**: `zernike_dde` of dask arrays, any number of correlation axes. -/
theorem C114_zernike_dde_partial (arctan2 : ℝ → ℝ → ℝ) (coords : DArr ℝ) (coeffs : DArr ℂ) (nollIndex : DArr Nat)
    (ncorr : Nat) (h : ZernikeArgs coords coeffs nollIndex ncorr) :
    ∃ l, daskZernikeDde arctan2 coords coeffs nollIndex = .ok l ∧
      l.Agrees (npZernikeDde arctan2 coords.whole coeffs.whole nollIndex.whole) := by
  obtain ⟨hco, hcf, hno, w1, w2, w3, d1, d2, d3⟩ := h
  obtain ⟨c3, cs, ct, ca, cc, hcc, g3, gs, gt, ga, gc⟩ := hco.five
  obtain ⟨ca', cc', ck, np, hce, hkl, ga', gc', gk, gp⟩ := coeffs_chunks hcf w2
  obtain ⟨ca'', cc'', ck', np', hcn, hkl', ga'', gc'', gk', gp'⟩ := coeffs_chunks hno w3
  simp only [DArr.axis, DArr.dim, DArr.whole, hcc, hce, hcn, List.getD_cons_succ, List.getD_cons_zero, List.map_cons,
    List.map_append, List.map_nil, List.sum_cons, List.sum_nil, add_zero, List.cons.injEq] at w1 d1 d2 d3
  obtain ⟨d3, d4, d5⟩ := d3
  obtain ⟨d7, d6⟩ := List.append_inj d5 (by simp [hkl, hkl'])
  simp only [List.cons.injEq, and_true] at d6
  subst d6
  obtain ⟨n3, rfl⟩ := List.length_eq_one_iff.1 w1
  unfold daskZernikeDde
  dsimp only
  rw [show (coeffs.chunks.drop 2).dropLast = ck by rw [hce]; simp]
  set C := numberedLabels "corr" ck.length with hC
  have hC' : C = numberedLabels "corr" ck'.length := by rw [hC, hkl, hkl']
  have hCm : ∀ l ∈ C, ∃ i < ck.length, l = .numbered "corr" i := fun l hl => mem_numberedLabels.1 hl
  generalize hfun : (fun (env : Label → List Nat) (out : List (Label × Nat)) => do
    npZernikeDde arctan2 (← (fetch env coords [lThree, lSource, lTime, lAnt, lChan] out).firsts 1)
      (← (fetch env coeffs ([lAnt, lChan] ++ C ++ [lPoly]) out).firsts 1)
      (← (fetch env nollIndex ([lAnt, lChan] ++ C ++ [lPoly]) out).firsts 1)) = f
  obtain ⟨env, hR, he⟩ := blockwise_axes ([lSource, lTime, lAnt, lChan] ++ C) []
      [coords.arg [lThree, lSource, lTime, lAnt, lChan], coeffs.arg ([lAnt, lChan] ++ C ++ [lPoly]),
        nollIndex.arg ([lAnt, lChan] ++ C ++ [lPoly])] f
    (extentsN [(lSource, cs.sum), (lTime, ct.sum), (lAnt, ca.sum), (lChan, cc.sum), (lThree, n3), (lPoly, np')] ck)
    (by
      intro l hl
      left
      rw [List.mem_append] at hl
      rcases hl with hl | hl
      · exact ⟨coords.arg [lThree, lSource, lTime, lAnt, lChan], by simp, by simp [DArr.arg] at hl ⊢; tauto⟩
      · exact ⟨coeffs.arg ([lAnt, lChan] ++ C ++ [lPoly]), by simp, by simp [DArr.arg, hl]⟩)
    (by
      have hk' := numbered_axes (name := "corr") (outLabels := [lSource, lTime, lAnt, lChan])
        (t := [(lSource, cs.sum), (lTime, ct.sum), (lAnt, ca.sum), (lChan, cc.sum), (lThree, n3), (lPoly, np')]) gk'
      rw [← hC'] at hk'
      have hext : ∀ t : List (Label × Nat), extentsN t ck' = extentsN t ck := by
        intro t
        funext l
        cases l with
        | name s => rfl
        | numbered s i =>
          have := congrArg (fun l => l.getD i 0) d7
          simp only [extentsN]
          have hx : ∀ c : List (List Nat), (c.getD i []).sum = (c.map List.sum).getD i 0 := by
            intro c
            simp only [List.getD_eq_getElem?_getD, List.getElem?_map]
            cases c[i]? <;> simp
          rw [hx, hx, this]
      rw [hext] at hk'
      intro a ha
      simp only [List.mem_cons, List.not_mem_nil, or_false] at ha
      rcases ha with rfl | rfl | rfl
      · simp (decide := true) [DArr.arg, hcc, extentsN_name, extents, pick, g3, gs, gt, ga, gc]
      · simp only [DArr.arg, hce, List.cons_append, List.nil_append, List.forall₂_cons]
        refine ⟨⟨ga', ?_, by simp⟩, ⟨gc', ?_, by simp⟩,
          List.rel_append (numbered_axes (outLabels := [lSource, lTime, lAnt, lChan]) gk) (.cons ⟨gp, ?_, by simp⟩ .nil)⟩ <;>
        simp (decide := true) [extentsN_name, extents, pick, d1, d2]
      · simp only [DArr.arg, hcn, List.cons_append, List.nil_append, List.forall₂_cons]
        refine ⟨⟨ga'', ?_, by simp⟩, ⟨gc'', ?_, by simp⟩,
          List.rel_append hk' (.cons ⟨gp, ?_, by simp⟩ .nil)⟩ <;>
        simp (decide := true) [extentsN_name, extents, pick, d1, d2, d3, d4])
  have es := hR.good (coords.arg [lThree, lSource, lTime, lAnt, lChan]) (by simp) lSource (by simp [DArr.arg])
  have et := hR.good (coords.arg [lThree, lSource, lTime, lAnt, lChan]) (by simp) lTime (by simp [DArr.arg])
  have ea := hR.good (coords.arg [lThree, lSource, lTime, lAnt, lChan]) (by simp) lAnt (by simp [DArr.arg])
  have ec := hR.good (coords.arg [lThree, lSource, lTime, lAnt, lChan]) (by simp) lChan (by simp [DArr.arg])
  have ek : ∀ i < ck.length, GoodChunks (env (.numbered "corr" i)) ∧ (env (.numbered "corr" i)).sum = (ck.getD i []).sum := by
    intro i hi
    exact hR.good (coeffs.arg ([lAnt, lChan] ++ C ++ [lPoly])) (by simp) _
      (by simp only [DArr.arg]
          exact List.mem_append_left _ (List.mem_append_right _ (mem_numberedLabels.2 ⟨i, hi, rfl⟩)))
  have e1 := hR.contracted (coords.arg [lThree, lSource, lTime, lAnt, lChan]) (by simp) lThree (by simp [DArr.arg])
    (by rw [mem_append_numbered (by decide)]; decide)
  have e2 := hR.contracted (coeffs.arg ([lAnt, lChan] ++ C ++ [lPoly])) (by simp) lPoly (by simp [DArr.arg])
    (by rw [mem_append_numbered (by decide)]; decide)
  simp (decide := true) only [extentsN_name, extents, pick, if_true, if_false, Option.getD_some] at es et ea ec e1 e2
  refine ⟨_, he, ?_⟩
  have hch : ([lSource, lTime, lAnt, lChan] ++ C).map (outChunks [] env) =
      [env lSource, env lTime, env lAnt, env lChan] ++ C.map env := by
    simp [outChunks, pick]
  simp only [hch]
  have hsum := numbered_sums (name := "corr") fun i hi => (ek i hi).2
  rw [← hC] at hsum
  have hw1 : coords.whole = ⟨[n3, (env lSource).sum, (env lTime).sum, (env lAnt).sum, (env lChan).sum], coords.val⟩ := by
    simp [DArr.whole, hcc, es.2, et.2, ea.2, ec.2]
  have hw2 : coeffs.whole = ⟨[(env lAnt).sum, (env lChan).sum] ++ (C.map env).map List.sum ++ [np'], coeffs.val⟩ := by
    rw [hsum]
    simp [DArr.whole, hce, ea.2, ec.2, d1, d2]
  have hw3 : nollIndex.whole = ⟨[(env lAnt).sum, (env lChan).sum] ++ (C.map env).map List.sum ++ [np'], nollIndex.val⟩ := by
    rw [hsum, ← d7]
    simp [DArr.whole, hcn, ea.2, ec.2, d1, d2, d3, d4]
  rw [hw1, hw2, hw3]
  have hdrop : ∀ (x y : Nat) (l : List Nat) (p : Nat), (([x, y] ++ l ++ [p]).drop 2).dropLast = l := by intros; simp
  have hlast : ∀ (x y : Nat) (l : List Nat) (p : Nat), ([x, y] ++ l ++ [p]).getLastD 0 = p := by
    intros; rw [List.getLastD_eq_getLast?, List.getLast?_append]; simp
  refine Lazy.agrees_blocks ?_ ?_ ?_
  · intro c hc
    simp only [List.mem_append, List.mem_map, List.mem_cons, List.not_mem_nil, or_false] at hc
    rcases hc with (rfl | rfl | rfl | rfl) | ⟨l, hl, rfl⟩
    · exact es.1.ne_nil
    · exact et.1.ne_nil
    · exact ea.1.ne_nil
    · exact ec.1.ne_nil
    · obtain ⟨i, hi, rfl⟩ := hCm l hl
      exact (ek i hi).1.ne_nil
  · intro a ha
    simp only [npZernikeDde, hdrop, hlast] at ha
    split_ifs at ha
    cases ha
    simp
  · intro b hb
    have hb' := hb
    rw [isBlock_append] at hb'
    obtain ⟨b1, b2, rfl, hb1, hb2⟩ := hb'
    simp only [isBlock_cons, isBlock_nil] at hb1
    obtain ⟨i, b', rfl, hi, j, b', rfl, hj, a, b', rfl, ha, c, b', rfl, hc, rfl⟩ := hb1
    rw [← hch] at hb
    have hCl : C.length = ck.length := numberedLabels_length _ _
    have hbl : b2.length = ck.length := by rw [hb2.length]; simp [hCl]
    have hz := blk_numbered (ls := [lSource, lTime, lAnt, lChan]) (name := "corr") (b1 := [i, j, a, c]) (by decide)
      (by decide) rfl hbl
    rw [← hC] at hz
    have hnone : ∀ l, l.isName = true → l ∉ [lSource, lTime, lAnt, lChan] →
        blk (([lSource, lTime, lAnt, lChan] ++ C).zip ([i, j, a, c] ++ b2)) l = 0 := by
      intro l h1 h2
      unfold blk
      rw [pick_zip_none _ _ _ (by rw [mem_append_numbered h1]; exact h2)]
      rfl
    dsimp only
    rw [← hfun]
    dsimp only
    have hcnt : C.countP (fun l => decide (l ∉ [lSource, lTime, lAnt, lChan] ++ C)) = 0 := by
      rw [List.countP_eq_zero]; intro l hl; simp [hl]
    have hcntn : ∀ ls : List Label, (∀ l ∈ ls, l.isName = true) →
        ls.countP (fun l => decide (l ∉ [lSource, lTime, lAnt, lChan] ++ C)) =
        ls.countP (fun l => decide (l ∉ [lSource, lTime, lAnt, lChan])) := by
      intro ls h1
      apply List.countP_congr
      intro l hl
      simp only [hC, mem_append_numbered (h1 l hl)]
    rw [hR.fetch coords [lThree, lSource, lTime, lAnt, lChan] 1 _ hb (by simp) (by simp [hcc])
        (by rw [hcntn _ (by decide)]; decide),
      hR.fetch coeffs ([lAnt, lChan] ++ C ++ [lPoly]) 1 _ hb (by simp) (by simp [hce, hCl])
        (by rw [List.countP_append, List.countP_append, hcnt, hcntn _ (by decide), hcntn _ (by decide)]; decide),
      hR.fetch nollIndex ([lAnt, lChan] ++ C ++ [lPoly]) 1 _ hb (by simp) (by simp [hcn, hCl, hkl, hkl'])
        (by rw [List.countP_append, List.countP_append, hcnt, hcntn _ (by decide), hcntn _ (by decide)]; decide)]
    have p1 : blk (([lSource, lTime, lAnt, lChan] ++ C).zip ([i, j, a, c] ++ b2)) lSource = i := by
      simp (decide := true) [blk, pick]
    have p2 : blk (([lSource, lTime, lAnt, lChan] ++ C).zip ([i, j, a, c] ++ b2)) lTime = j := by
      simp (decide := true) [blk, pick]
    have p3 : blk (([lSource, lTime, lAnt, lChan] ++ C).zip ([i, j, a, c] ++ b2)) lAnt = a := by
      simp (decide := true) [blk, pick]
    have p4 : blk (([lSource, lTime, lAnt, lChan] ++ C).zip ([i, j, a, c] ++ b2)) lChan = c := by
      simp (decide := true) [blk, pick]
    have hpc : ∀ {β : Type} (d : DArr β), part env (([lSource, lTime, lAnt, lChan] ++ C).zip ([i, j, a, c] ++ b2))
        ([lAnt, lChan] ++ C ++ [lPoly]) d =
        ⟨[blockSize (env lAnt) a, blockSize (env lChan) c] ++ List.zipWith blockSize (C.map env) b2 ++ [np'],
          fun x => d.val (List.zipWith (· + ·) ([blockOff (env lAnt) a, blockOff (env lChan) c] ++
            List.zipWith blockOff (C.map env) b2 ++ [0]) x)⟩ := by
      intro β d
      rw [part_eq]
      simp only [List.map_append, hz, List.map_cons, List.map_nil, p3, p4, hnone lPoly rfl (by decide), e2]
      rw [List.zipWith_append (by simp [hbl, hCl]), List.zipWith_append (by simp),
        List.zipWith_append (by simp [hbl, hCl]), List.zipWith_append (by simp)]
      simp [blockSize_single, blockOff_zero]
    rw [hpc, hpc]
    have hnil : List.zipWith blockSize (C.map env) b2 = [] ↔ (C.map env).map List.sum = [] := by
      rw [← List.length_eq_zero_iff, ← List.length_eq_zero_iff]
      simp [hbl, hCl]
    simp (decide := true) only [bind, Except.bind, part, List.map_cons, List.map_nil, p1, p2, p3, p4, npZernikeDde,
      hnone lThree rfl (by decide), blockOff_zero, e1, blockSize_single, hdrop, hlast, hnil, es.1.block_pos hi,
      et.1.block_pos hj, ea.1.block_pos ha, ec.1.block_pos hc, ne_eq, not_true_eq_false, if_false]
    split_ifs with h1 h2
    · exact rfl
    · exact rfl
    · refine ⟨_, by rw [List.zipWith_append (by simp)]; rfl, fun x hx => ?_⟩
      rw [List.zipWith_append (by simp), isIndex_append] at hx
      obtain ⟨x1, x2, rfl, hx1, hx2⟩ := hx
      simp only [List.zipWith_cons_cons, List.zipWith_nil_left, isIndex_cons, isIndex_nil] at hx1
      obtain ⟨s, x', rfl, _, t, x', rfl, _, q, x', rfl, _, f', x', rfl, _, rfl⟩ := hx1
      have hx2l : x2.length = C.length := by rw [hx2.length]; simp [hbl, hCl]
      rw [List.zipWith_append (by simp)]
      have hcons : ∀ (o : List Nat) (p : Nat), o.length = x2.length →
          List.zipWith (fun x1 x2 => x1 + x2) (o ++ [0]) (x2 ++ [p]) = List.zipWith (fun x1 x2 => x1 + x2) o x2 ++ [p] := by
        intro o p ho
        rw [List.zipWith_append ho]; simp
      have hol : (List.zipWith blockOff (C.map env) b2).length = x2.length := by simp [hbl, hCl, hx2l]
      simp [hcons _ _ hol]

/-- **C114** fails for `zernike_dde` if the polynomials are in several blocks: only those of the first block are summed.
Two polynomials in two blocks: the numpy function gives 2, the dask function 1. -/
theorem C114_zernike_violated (arctan2 : ℝ → ℝ → ℝ) :
    let coords : DArr ℝ := ⟨[[3], [1], [1], [1], [1]], fun _ => 0⟩
    let coeffs : DArr ℂ := ⟨[[1], [1], [1], [1, 1]], fun _ => 1⟩
    let nollIndex : DArr Nat := ⟨[[1], [1], [1], [1, 1]], fun _ => 0⟩
    ∃ l a, daskZernikeDde arctan2 coords coeffs nollIndex = .ok l ∧
      npZernikeDde arctan2 coords.whole coeffs.whole nollIndex.whole = .ok a ∧
      (∃ k, l.block [0, 0, 0, 0, 0] = .ok k ∧ k.val [0, 0, 0, 0, 0] = 1) ∧ a.val [0, 0, 0, 0, 0] = 2 := by
  intro coords coeffs nollIndex
  have hz : ∀ phi, zernike 0 0 phi = .ok 1 := by
    intro phi
    have hn : noll 0 = (0, 0) := by
      simp [noll, nollLoop]
    unfold zernike
    simp only [hn]
    simp [zernikeRad, preFac, fac, forRangeM, bind, Except.bind, pure, Except.pure]
  have hd : ∀ n, zernikeDde arctan2 0 0 n (fun _ => 1) (fun _ => 0) = .ok (n : ℂ) := by
    intro n
    induction n with
    | zero => simp [zernikeDde]
    | succ n ih =>
      unfold zernikeDde at ih ⊢
      dsimp only at ih ⊢
      rw [forRangeM_succ, ih]
      simp [bind, Except.bind, convertCoords, hz]
  set A : List Arg := [coords.arg [lThree, lSource, lTime, lAnt, lChan], coeffs.arg [lAnt, lChan, .numbered "corr" 0, lPoly],
    nollIndex.arg [lAnt, lChan, .numbered "corr" 0, lPoly]] with hA
  have hu : unify A = .ok (unified A) := by
    unfold unify
    rw [if_pos (by decide), if_pos (by decide)]
  have u1 : unified A lThree = [3] := by decide
  have u2 : unified A lSource = [1] := by decide
  have u3 : unified A lTime = [1] := by decide
  have u4 : unified A lAnt = [1] := by decide
  have u5 : unified A lChan = [1] := by decide
  have u6 : unified A lPoly = [1, 1] := by decide
  have u7 : unified A (.numbered "corr" 0) = [1] := by decide
  unfold daskZernikeDde
  dsimp only
  rw [show numberedLabels "corr" (coeffs.chunks.drop 2).dropLast.length = [.numbered "corr" 0] by rfl]
  simp only [List.cons_append, List.nil_append]
  unfold blockwise
  rw [if_pos (by decide), ← hA, hu]
  refine ⟨_, _, rfl, by simp only [npZernikeDde, coords, coeffs, nollIndex, DArr.whole]; rfl, ?_, ?_⟩
  · dsimp only
    simp (decide := true) only [bind, Except.bind, fetch, DArr.rechunk, coords, coeffs, nollIndex, newChunks,
      List.zipWith_cons_cons,
      List.zipWith_nil_left, u1, u2, u3, u4, u5, u6, u7, nest, pick, List.zip_cons_cons, List.zip_nil_right, if_true, if_false,
      List.sum_cons, List.sum_nil, List.length_cons, List.length_nil, List.nil_append, List.cons_append]
    refine ⟨_, rfl, ?_⟩
    simp [hd, DArr.block, blockSize]
  · simp [hd]

/-- **C114**: `beam_cube_dde` refuses a beam, frequency map or extents of several blocks, whatever the other arguments. -/
theorem C114_beam_refused (beam : DArr ℂ) (ext freqMap lm pa pe scaling frequency : DArr ℝ)
    (h : (∃ c ∈ beam.chunks, c.length ≠ 1) ∨ (∃ c ∈ freqMap.chunks, c.length ≠ 1) ∨ ∃ c ∈ ext.chunks, c.length ≠ 1) :
    daskBeamCubeDde beam ext freqMap lm pa pe scaling frequency = .error .valueError := by
  have hone : ∀ {α : Type} (d : DArr α), d.oneBlock = false ↔ ∃ c ∈ d.chunks, c.length ≠ 1 := by
    intro α d
    simp [DArr.oneBlock]
  unfold daskBeamCubeDde
  simp only [hone]
  split_ifs with h1 h2 h3
  · rfl
  · rfl
  · rfl
  · exact absurd h (not_or.2 ⟨h1, not_or.2 ⟨h2, h3⟩⟩)

/-- **C114**: `phase_delay` does not mistake a part of the coordinates for the whole: with the components of `lm` in two
blocks every block raises `ValueError`, if there is a source. -/
theorem C114_phase_split (lm uvw frequency : DArr ℝ) (convention : String) (cs : List Nat) (hl : lm.chunks = [cs, [1, 1]])
    (gs : GoodChunks cs) (hpos : 0 < cs.sum) (hu : uvw.Valid 2) (hu1 : (uvw.axis 1).length = 1) (hf : frequency.Valid 1) :
    ∃ l, daskPhaseDelay lm uvw frequency convention = .ok l ∧ ∀ b, IsBlock l.chunks b → l.block b = .error .valueError := by
  obtain ⟨cr, c3, hcu, gr, g3⟩ := hu.two
  obtain ⟨cf, hcf, gf⟩ := hf.one
  simp only [DArr.axis, hcu, List.getD_cons_succ, List.getD_cons_zero] at hu1
  obtain ⟨m, rfl⟩ := List.length_eq_one_iff.1 hu1
  unfold daskPhaseDelay
  generalize hfun : (fun (env : Label → List Nat) (out : List (Label × Nat)) => do
    npPhaseDelay (← (fetch env lm [lSource, lLmc] out).firsts 1) (← (fetch env uvw [lRow, lUvwc] out).firsts 1)
      (← (fetch env frequency [lChan] out).firsts 0) convention) = f
  obtain ⟨env, hR, he⟩ := blockwise_any_axes [lSource, lRow, lChan] []
    [lm.arg [lSource, lLmc], uvw.arg [lRow, lUvwc], frequency.arg [lChan]] f
    (extents [(lSource, cs.sum), (lRow, cr.sum), (lChan, cf.sum), (lLmc, 2), (lUvwc, m)])
    (by simp [DArr.arg])
    (by simp (decide := true) [DArr.arg, hl, hcu, hcf, gs, gr, gf, g3, extents, pick,
      show GoodChunks [1, 1] by simp [GoodChunks]])
  have el : env lLmc = [1, 1] := by
    apply hR.unified.kept
    · simp (decide := true) [chunksFor, DArr.arg, hl]
    · simp (decide := true) [chunksFor, DArr.arg, hl, hcu, hcf]
  have es := hR.good (lm.arg [lSource, lLmc]) (by simp) lSource (by simp [DArr.arg])
  simp (decide := true) only [extents, pick, if_true, Option.getD_some] at es
  refine ⟨_, he, fun b hb => ?_⟩
  have hb' := hb
  have hch : [lSource, lRow, lChan].map (outChunks [] env) = [env lSource, env lRow, env lChan] := by simp [outChunks, pick]
  simp only [hch, isBlock_cons, isBlock_nil] at hb'
  obtain ⟨i, b', rfl, hi, j, b', rfl, hj, k, b', rfl, hk, rfl⟩ := hb'
  dsimp only
  rw [← hfun]
  dsimp only
  rw [hR.fetch lm [lSource, lLmc] 1 _ hb (by simp) (by simp [hl]) (by decide),
    hR.fetch uvw [lRow, lUvwc] 1 _ hb (by simp) (by simp [hcu]) (by decide),
    hR.fetch frequency [lChan] 0 _ hb (by simp) (by simp [hcf]) (by decide)]
  simp (decide := true) only [bind, Except.bind, part, blk, pick, el, List.map_cons, List.map_nil, List.zip_cons_cons,
    List.zip_nil_right, if_true, if_false, Option.getD_some, Option.getD_none, npPhaseDelay, phaseDelay]
  have hp : phaseConstant convention = .error .valueError ∨ ∃ c, phaseConstant convention = .ok c := by
    unfold phaseConstant
    split_ifs
    · exact Or.inr ⟨_, rfl⟩
    · exact Or.inr ⟨_, rfl⟩
    · exact Or.inl rfl
  rcases hp with hp | ⟨c, hp⟩
  · rw [hp]
  · rw [hp]
    have := (es.1.block_pos hi).2 (by omega)
    simp [this]

/-! ### the hypotheses hold for arrays of several blocks -/

example : PhaseArgs ⟨[[2, 1], [2]], fun _ => 0⟩ ⟨[[4, 4], [3]], fun _ => 0⟩ ⟨[[8, 8]], fun _ => 1⟩ := by
  refine ⟨⟨rfl, ?_⟩, ⟨rfl, ?_⟩, ⟨rfl, ?_⟩, rfl, rfl⟩ <;> simp [GoodChunks]

example : ParangleArgs ⟨[[2, 1]], fun _ => 0⟩ ⟨[[4, 3], [3]], fun _ => 0⟩ ⟨[[2]], fun _ => 1⟩ := by
  refine ⟨⟨rfl, ?_⟩, ⟨rfl, ?_⟩, ⟨rfl, ?_⟩, rfl, rfl⟩ <;> simp [GoodChunks]

example : TransformArgs ⟨[[2, 1], [2]], fun _ => 0⟩ ⟨[[2, 3], [4, 3]], fun _ => 0⟩ ⟨[[5], [7], [2]], fun _ => 1⟩
    ⟨[[7], [2, 2]], fun _ => 1⟩ ⟨[[4]], fun _ => 1⟩ := by
  refine ⟨⟨rfl, ?_⟩, ⟨rfl, ?_⟩, ⟨rfl, ?_⟩, ⟨rfl, ?_⟩, ⟨rfl, ?_⟩, rfl, rfl, rfl, rfl, rfl, rfl, rfl⟩ <;> simp [GoodChunks]

example : (⟨[[2, 1], [4, 4]], fun _ => 0⟩ : DArr ℝ).Valid 2 := ⟨rfl, by simp [GoodChunks]⟩

example : BeamArgs ⟨[[10], [10], [5], [2], [2]], fun _ => 1⟩ ⟨[[2], [2]], fun _ => 0⟩ ⟨[[5]], fun _ => 0⟩
    ⟨[[2, 1], [2]], fun _ => 0⟩ ⟨[[2, 3], [4, 3]], fun _ => 0⟩ ⟨[[5], [7], [2, 2], [2]], fun _ => 1⟩
    ⟨[[7], [4], [2]], fun _ => 1⟩ ⟨[[2, 2]], fun _ => 1⟩ 2 := by
  refine ⟨⟨rfl, ?_⟩, ⟨rfl, ?_⟩, ⟨rfl, ?_⟩, ⟨rfl, ?_⟩, ⟨rfl, ?_⟩, ⟨rfl, ?_⟩, ⟨rfl, ?_⟩, ⟨rfl, ?_⟩, ?_, ?_, ?_, rfl, rfl, rfl, rfl, rfl,
    rfl, rfl, rfl, rfl⟩ <;> simp [GoodChunks]

example : ZernikeArgs ⟨[[3], [2, 2], [5], [4, 3], [2]], fun _ => 0⟩ ⟨[[7], [1, 1], [2], [2], [10]], fun _ => 1⟩
    ⟨[[7], [2], [2], [2], [10]], fun _ => 1⟩ 2 := by
  refine ⟨⟨rfl, ?_⟩, ⟨rfl, ?_⟩, ⟨rfl, ?_⟩, rfl, rfl, rfl, rfl, rfl, rfl⟩ <;> simp [GoodChunks]

example : (∃ c ∈ (⟨[[5, 5], [10], [5]], fun _ => 1⟩ : DArr ℂ).chunks, c.length ≠ 1) := by simp

end Verif.Dask
