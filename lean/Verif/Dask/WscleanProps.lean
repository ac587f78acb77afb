/-
C116: WSClean predictions on dask arrays.
-/
import Verif.Dask.WscleanLemmas

set_option autoImplicit false

namespace Verif.Dask

open Verif.Rime Verif.ModelData

/-- The lazy spectra: their chunks, and the only exception their blocks raise. -/
theorem daskSpectra_blocks (stokes spi : DArr ℝ) (logSi : LogArg (DArr Bool)) (refFreq frequency : DArr ℝ)
    (h : SpectraArgs stokes spi logSi refFreq frequency) (l : Lazy ℝ)
    (hl : daskSpectra stokes spi logSi refFreq frequency = .ok l) :
    (∃ a b, l.chunks = [a, b] ∧ GoodChunks a ∧ GoodChunks b ∧ a.sum = stokes.dim 0 ∧ b.sum = frequency.dim 0) ∧
    ∀ b, IsBlock l.chunks b → ∀ e, l.block b = .error e → e = .valueError := by
  obtain ⟨hs, hp, hr, hf, hlog, d1, d2, hp1⟩ := h
  obtain ⟨cs, hcs, gs⟩ := hs.one
  obtain ⟨cs', cn, hcp, gs', gn⟩ := hp.two
  obtain ⟨cs'', hcr, gs''⟩ := hr.one
  obtain ⟨cf, hcf, gf⟩ := hf.one
  have hlog' : ∀ a, logSi = .array a → ∃ c, a.chunks = [c] ∧ GoodChunks c ∧ c.sum = cs.sum := by
    intro a ha
    obtain ⟨c, hc, gc⟩ := (hlog a ha).1.one
    have := (hlog a ha).2
    simp only [DArr.dim, DArr.axis, hc, hcs, List.getD_cons_zero] at this
    exact ⟨c, hc, gc, this⟩
  simp only [DArr.axis, DArr.dim, hcs, hcp, hcr, hcf, List.getD_cons_succ, List.getD_cons_zero] at hp1 d1 d2 ⊢
  obtain ⟨n, rfl⟩ := List.length_eq_one_iff.1 hp1
  unfold daskSpectra at hl
  generalize hfun : (fun (env : Label → List Nat) (out : List (Label × Nat)) => do
    npSpectra (← (fetch env stokes [lSource] out).firsts 0) (← (fetch env spi [lSource, lSpi] out).firsts 1)
      (← logSi.fetch env out) (← (fetch env refFreq [lSource] out).firsts 0)
      (← (fetch env frequency [lChan] out).firsts 0)) = f at hl
  obtain ⟨env, hR, he⟩ := blockwise_axes [lSource, lChan] []
    ([stokes.arg [lSource], spi.arg [lSource, lSpi]] ++ logSi.args ++ [refFreq.arg [lSource], frequency.arg [lChan]]) f
    (extents [(lSource, cs.sum), (lChan, cf.sum), (lSpi, n)])
    (by
      simp only [List.mem_cons, List.not_mem_nil, or_false, forall_eq_or_imp, forall_eq]
      exact ⟨Or.inl ⟨stokes.arg [lSource], by simp, by simp [DArr.arg]⟩,
        Or.inl ⟨frequency.arg [lChan], by simp, by simp [DArr.arg]⟩⟩)
    (by
      cases logSi with
      | bool b =>
        simp (decide := true) [LogArg.args, DArr.arg, hcs, hcp, hcr, hcf, gs, gs', gs'', gf, gn, extents, pick, d1, d2]
      | array a =>
        obtain ⟨c, hc, gc, d3⟩ := hlog' a rfl
        simp (decide := true) [LogArg.args, DArr.arg, hcs, hcp, hcr, hcf, hc, gs, gs', gs'', gf, gn, gc, extents, pick, d1, d2,
          d3])
  have es := hR.good (stokes.arg [lSource]) (by simp) lSource (by simp [DArr.arg])
  have ef := hR.good (frequency.arg [lChan]) (by simp) lChan (by simp [DArr.arg])
  simp (decide := true) only [extents, pick, if_true, if_false, Option.getD_some] at es ef
  rw [he] at hl
  obtain rfl := Except.ok.inj hl
  have hch : [lSource, lChan].map (outChunks [] env) = [env lSource, env lChan] := by simp [outChunks, pick]
  refine ⟨⟨_, _, hch, es.1, ef.1, es.2, ef.2⟩, ?_⟩
  intro b hb e hbe
  dsimp only at hb hbe
  obtain ⟨v, hv⟩ : ∃ v, logSi.fetch env ([lSource, lChan].zip b) = .ok v := by
    cases logSi with
    | bool b => exact ⟨_, rfl⟩
    | array a =>
      obtain ⟨c, hc, gc, d3⟩ := hlog' a rfl
      simp only [LogArg.fetch]
      rw [hR.fetch a [lSource] 0 _ hb (by simp [LogArg.args]) (by simp [hc]) (by decide)]
      exact ⟨_, rfl⟩
  rw [← hfun] at hbe
  dsimp only at hbe
  rw [hR.fetch stokes [lSource] 0 _ hb (by simp) (by simp [hcs]) (by decide),
    hR.fetch spi [lSource, lSpi] 1 _ hb (by simp) (by simp [hcp]) (by decide),
    hR.fetch refFreq [lSource] 0 _ hb (by simp) (by simp [hcr]) (by decide),
    hR.fetch frequency [lChan] 0 _ hb (by simp) (by simp [hcf]) (by decide), hv] at hbe
  simp only [bind, Except.bind, part, List.map_cons, List.map_nil, npSpectra] at hbe
  split at hbe
  · rename_i e' h'
    obtain rfl := Except.error.inj hbe
    exact C48_error_kind _ _ _ _ _ _ _ _ _ _ _ _ h'
  · cases hbe

/-- Hypotheses of `wsclean_predict`: axes with the same meaning have the same extent, and components and coefficients are
in one block. -/
structure WscleanArgs (uvw lm : DArr ℝ) (sourceType : DArr String) (flux coeffs : DArr ℝ) (logPoly : LogArg (DArr Bool))
    (refFreq gaussShape frequency : DArr ℝ) : Prop extends SpectraArgs flux coeffs logPoly refFreq frequency where
  uvwValid : uvw.Valid 2
  lmValid : lm.Valid 2
  typeValid : sourceType.Valid 1
  shapeValid : gaussShape.Valid 2
  logArray : ∃ a, logPoly = .array a
  lmSources : lm.dim 0 = flux.dim 0
  typeSources : sourceType.dim 0 = flux.dim 0
  shapeSources : gaussShape.dim 0 = flux.dim 0
  uvwWhole : (uvw.axis 1).length = 1
  lmWhole : (lm.axis 1).length = 1
  shapeWhole : (gaussShape.axis 1).length = 1

/-- The body on the parts of the arrays that a task gets. -/
noncomputable def wsParts (uvw lm : DArr ℝ) (sourceType : DArr String) (gaussShape frequency spectrum : DArr ℝ)
    (env : Label → List Nat) (out : List (Label × Nat)) : Except PyErr (NArr ℂ) :=
  wsBody (part env out [lRow, lUvw] uvw) (part env out [lSource, lLmComp] lm) (part env out [lSource] sourceType)
    (part env out [lSource, lGauss] gaussShape) (part env out [lChan] frequency) (part env out [lSource, lChan] spectrum)

/-- **C116**: `wsclean_predict` of dask arrays is that of the whole arrays. The coefficients are in one block; see
`C116_violated`. -/
theorem C116_predict_partial (uvw lm : DArr ℝ) (sourceType : DArr String) (flux coeffs : DArr ℝ)
    (logPoly : LogArg (DArr Bool)) (refFreq gaussShape frequency : DArr ℝ)
    (h : WscleanArgs uvw lm sourceType flux coeffs logPoly refFreq gaussShape frequency) :
    ∃ l, daskWscleanPredict uvw lm sourceType flux coeffs logPoly refFreq gaussShape frequency = .ok l ∧
      l.Agrees (npWscleanPredict uvw.whole lm.whole sourceType.whole flux.whole coeffs.whole logPoly.whole refFreq.whole
        gaussShape.whole frequency.whole) := by
  obtain ⟨hSp, hu, hl, ht, hg, ⟨lp, rfl⟩, d1, d2, d3, w1, w2, w3⟩ := h
  obtain ⟨sp, hsp, hag⟩ := C115_spectra_partial flux coeffs (.array lp) refFreq frequency hSp
  obtain ⟨⟨csp, cfp, hch, gsp, gfp, es0, ef0⟩, herr⟩ := daskSpectra_blocks _ _ _ _ _ hSp sp hsp
  obtain ⟨cr, c2, hcu, gr, g2⟩ := hu.two
  obtain ⟨cl, c3, hcl, gl, g3⟩ := hl.two
  obtain ⟨ct, hct, gt⟩ := ht.one
  obtain ⟨cg, c4, hcg, gg, g4⟩ := hg.two
  obtain ⟨cf, hcf, gf⟩ := hSp.freqValid.one
  simp only [DArr.axis, DArr.dim, hcu, hcl, hct, hcg, hcf, List.getD_cons_succ, List.getD_cons_zero] at d1 d2 d3 w1 w2 w3 es0 ef0
  obtain ⟨nu, rfl⟩ := List.length_eq_one_iff.1 w1
  obtain ⟨nl, rfl⟩ := List.length_eq_one_iff.1 w2
  obtain ⟨ng, rfl⟩ := List.length_eq_one_iff.1 w3
  rw [← es0] at d1 d2 d3
  unfold daskWscleanPredict
  dsimp only
  rw [hsp]
  dsimp only
  generalize hfun : wsTask uvw lm sourceType gaussShape frequency sp = T
  obtain ⟨env, hR, he⟩ := blockwise_axes [lSource, lRow, lChan, lCorr] [(lCorr, 1)]
    [uvw.arg [lRow, lUvw], lm.arg [lSource, lLmComp], sourceType.arg [lSource], gaussShape.arg [lSource, lGauss],
      frequency.arg [lChan], ([lSource, lChan], sp.chunks)] T
    (extents [(lSource, csp.sum), (lRow, cr.sum), (lChan, cf.sum), (lUvw, nu), (lLmComp, nl), (lGauss, ng)])
    (by simp [DArr.arg])
    (by simp (decide := true) [DArr.arg, hcu, hcl, hct, hcg, hcf, hch, gr, gl, gt, gg, gf, gsp, gfp, g2, g3, g4, extents, pick,
      d1, d2, d3, ef0])
  rw [he]
  have es := hR.good (sourceType.arg [lSource]) (by simp) lSource (by simp [DArr.arg])
  have er := hR.good (uvw.arg [lRow, lUvw]) (by simp) lRow (by simp [DArr.arg])
  have ef := hR.good (frequency.arg [lChan]) (by simp) lChan (by simp [DArr.arg])
  have k1 := hR.contracted (uvw.arg [lRow, lUvw]) (by simp) lUvw (by simp [DArr.arg]) (by decide)
  have k2 := hR.contracted (lm.arg [lSource, lLmComp]) (by simp) lLmComp (by simp [DArr.arg]) (by decide)
  have k3 := hR.contracted (gaussShape.arg [lSource, lGauss]) (by simp) lGauss (by simp [DArr.arg]) (by decide)
  simp (decide := true) only [extents, pick, if_true, if_false, Option.getD_some] at es er ef k1 k2 k3
  have hoc : [lSource, lRow, lChan, lCorr].map (outChunks [(lCorr, 1)] env) = [env lSource, env lRow, env lChan, [1]] := by
    simp (decide := true) [outChunks, pick]
  refine ⟨_, rfl, ?_⟩
  simp only [hoc, List.drop_succ_cons, List.drop_zero, List.headD_cons]
  have hne : ∀ c ∈ [env lRow, env lChan, [1]], c ≠ [] := by simp [er.1.ne_nil, ef.1.ne_nil]
  have hspos : 0 < (env lSource).length := List.length_pos_iff.2 es.1.ne_nil
  -- one task
  have htask : ∀ k < (env lSource).length, ∀ b, IsBlock [env lRow, env lChan, [1]] b →
      T env ([lSource, lRow, lChan, lCorr].zip (k :: b)) = match sp.assemble with
        | .error e => .error e
        | .ok d => wsParts uvw lm sourceType gaussShape frequency ⟨sp.chunks, d.val⟩ env
            ([lSource, lRow, lChan, lCorr].zip (k :: b)) := by
    intro k hk b hb
    have hB : IsBlock ([lSource, lRow, lChan, lCorr].map (outChunks [(lCorr, 1)] env)) (k :: b) := by
      rw [hoc]; exact isBlock_cons.2 ⟨k, b, rfl, hk, hb⟩
    rw [← hfun]
    unfold wsTask
    cases hA : sp.assemble with
    | error e => rfl
    | ok d =>
      have hdc : d.chunks = sp.chunks := by
        unfold Lazy.assemble at hA
        split at hA
        · cases hA
        · obtain rfl := Except.ok.inj hA; rfl
      have hd : d = ⟨sp.chunks, d.val⟩ := by rw [← hdc]
      rw [hd]
      dsimp only [bind, Except.bind]
      rw [hR.fetch uvw [lRow, lUvw] 1 _ hB (by simp) (by simp [hcu]) (by decide),
        hR.fetch lm [lSource, lLmComp] 1 _ hB (by simp) (by simp [hcl]) (by decide),
        hR.fetch sourceType [lSource] 0 _ hB (by simp) (by simp [hct]) (by decide),
        hR.fetch gaussShape [lSource, lGauss] 1 _ hB (by simp) (by simp [hcg]) (by decide),
        hR.fetch frequency [lChan] 0 _ hB (by simp) (by simp [hcf]) (by decide),
        hR.fetch (⟨sp.chunks, d.val⟩ : DArr ℝ) [lSource, lChan] 0 _ hB (by simp [DArr.arg]) (by simp [hch]) (by decide)]
      rfl
  unfold npWscleanPredict
  cases hnp : npSpectra flux.whole coeffs.whole (LogArg.array lp).whole refFreq.whole frequency.whole with
  | error e =>
    rw [hnp] at hag
    have hev : e = .valueError := by
      obtain ⟨b, hb, hbe⟩ := hag
      exact herr b hb e hbe
    subst hev
    have hA := Lazy.assemble_error hag herr
    refine Lazy.agrees_error hne fun b hb => ?_
    refine sumArrays_error _ _ ?_ ?_
    · refine List.mem_map.2 ⟨0, List.mem_range.2 hspos, ?_⟩
      rw [htask 0 hspos b hb, hA]
    · intro e' he'
      obtain ⟨k, hk, hke⟩ := List.mem_map.1 he'
      rw [htask k (List.mem_range.1 hk) b hb, hA] at hke
      exact (Except.error.inj hke).symm
  | ok sa =>
    rw [hnp] at hag
    obtain ⟨d, hA, hdc, hdv⟩ := Lazy.Computes.assemble hag
    have hsa : sa.shape = [(env lSource).sum, (env lChan).sum] := by
      rw [← hag.1, hch, es.2, ef.2]; simp [ef0]
    have hsrc : ∀ i < (env lSource).length, ∀ s < blockSize (env lSource) i, ∀ j < (env lChan).length,
        ∀ f < blockSize (env lChan) j, d.val [blockOff (env lSource) i + s, blockOff (env lChan) j + f] =
          sa.val [blockOff (env lSource) i + s, blockOff (env lChan) j + f] := by
      intro i _ s hs j _ f hf
      refine hdv _ ?_
      rw [hsa]
      simp [isIndex_cons, isIndex_nil, blockOff_lt hs, blockOff_lt hf]
    have hw1 : uvw.whole = ⟨[(env lRow).sum, nu], uvw.val⟩ := by simp [DArr.whole, hcu, er.2]
    have hw2 : gaussShape.whole = ⟨[(env lSource).sum, ng], gaussShape.val⟩ := by simp [DArr.whole, hcg, es.2, d3]
    have hw3 : frequency.whole = ⟨[(env lChan).sum], frequency.val⟩ := by simp [DArr.whole, hcf, ef.2]
    obtain ⟨hgood, hbad⟩ := wsBody_cases uvw.whole lm.whole sourceType.whole gaussShape.whole frequency.whole sa
      (env lRow).sum (env lChan).sum (env lSource).sum ng nu _ _ (by rw [hw1]) (by rw [hw2]) (by rw [hw3]) hsa
    -- one block
    have hpart : ∀ k < (env lSource).length, ∀ i < (env lRow).length, ∀ j < (env lChan).length,
        ((∀ s < blockSize (env lSource) k, GoodSource (sourceType.val [blockOff (env lSource) k + s]) ng) →
          ∃ v, T env ([lSource, lRow, lChan, lCorr].zip (k :: [i, j, 0])) =
              .ok ⟨[blockSize (env lRow) i, blockSize (env lChan) j, 1], v⟩ ∧
            ∀ r < blockSize (env lRow) i, ∀ f < blockSize (env lChan) j, ∀ z, v [r, f, z] =
              ∑ s ∈ Finset.range (blockSize (env lSource) k), sourceTerm uvw.whole lm.whole sourceType.whole gaussShape.whole
                frequency.whole sa (blockOff (env lSource) k + s) (blockOff (env lRow) i + r) (blockOff (env lChan) j + f)) ∧
        ((∃ s < blockSize (env lSource) k, ¬ GoodSource (sourceType.val [blockOff (env lSource) k + s]) ng) →
          T env ([lSource, lRow, lChan, lCorr].zip (k :: [i, j, 0])) = .error .valueError) := by
      intro k hk i hi j hj
      have hb : IsBlock [env lRow, env lChan, [1]] [i, j, 0] := by simp [isBlock_cons, isBlock_nil, hi, hj]
      rw [htask k hk _ hb, hA]
      dsimp only
      unfold wsParts
      have p1 : part env ([lSource, lRow, lChan, lCorr].zip (k :: [i, j, 0])) [lSource] sourceType =
          ⟨[blockSize (env lSource) k], fun x => sourceType.val (List.zipWith (· + ·) [blockOff (env lSource) k] x)⟩ := by
        simp [part, blk, pick]
      obtain ⟨q1, q2⟩ := wsBody_cases
        (part env ([lSource, lRow, lChan, lCorr].zip (k :: [i, j, 0])) [lRow, lUvw] uvw)
        (part env ([lSource, lRow, lChan, lCorr].zip (k :: [i, j, 0])) [lSource, lLmComp] lm)
        (part env ([lSource, lRow, lChan, lCorr].zip (k :: [i, j, 0])) [lSource] sourceType)
        (part env ([lSource, lRow, lChan, lCorr].zip (k :: [i, j, 0])) [lSource, lGauss] gaussShape)
        (part env ([lSource, lRow, lChan, lCorr].zip (k :: [i, j, 0])) [lChan] frequency)
        (part env ([lSource, lRow, lChan, lCorr].zip (k :: [i, j, 0])) [lSource, lChan] ⟨sp.chunks, d.val⟩)
        (blockSize (env lRow) i) (blockSize (env lChan) j) (blockSize (env lSource) k) ng nu (blockSize (env lSource) k)
        (blockSize (env lChan) j)
        (by simp (decide := true) [part, blk, pick, k1, blockSize_single])
        (by simp (decide := true) [part, blk, pick, k3, blockSize_single])
        (by simp (decide := true) [part, blk, pick])
        (by simp (decide := true) [part, blk, pick])
      rw [p1] at q1 q2 ⊢
      refine ⟨fun h => ?_, fun h => q2 (by simpa using h)⟩
      obtain ⟨v, hv1, hv2⟩ := q1 (by simpa using h)
      refine ⟨v, hv1, fun r hr f hf z => ?_⟩
      rw [hv2 r hr f hf z]
      refine Finset.sum_congr rfl fun s hs => ?_
      have hval := hsrc k hk s (Finset.mem_range.1 hs) j hj f hf
      unfold sourceTerm
      simp (decide := true) only [part, blk, pick, List.map_cons, List.map_nil, List.zip_cons_cons, List.zip_nil_right,
        if_true, if_false, Option.getD_some, Option.getD_none, List.zipWith_cons_cons, List.zipWith_nil_left, k1, k2, k3,
        blockOff_zero, zero_add, DArr.whole, hval]
      by_cases hP : sourceType.val [blockOff (env lSource) k + s] = "POINT"
      · rw [if_pos hP]; exact (if_pos hP).symm
      · rw [if_neg hP]; exact (if_neg hP).symm
    by_cases hall : ∀ s < (env lSource).sum, GoodSource (sourceType.val [s]) ng
    · obtain ⟨w, hw, hwv⟩ := hgood hall
      dsimp only [bind, Except.bind]
      rw [hw]
      refine Lazy.agrees_ok (by simp) fun b hb => ?_
      simp only [isBlock_cons, isBlock_nil, List.length_singleton] at hb
      obtain ⟨i, b', rfl, hi, j, b'', rfl, hj, z, b3, rfl, hz, rfl⟩ := hb
      obtain rfl : z = 0 := by omega
      choose! v hv1 hv2 using fun k (hk : k < (env lSource).length) =>
        (hpart k hk i hi j hj).1 fun s hs => hall _ (blockOff_lt hs)
      have hmap : ((List.range (env lSource).length).map fun k => T env ([lSource, lRow, lChan, lCorr].zip (k :: [i, j, 0]))) =
          (List.range (env lSource).length).map fun k =>
            (.ok ⟨[blockSize (env lRow) i, blockSize (env lChan) j, 1], v k⟩ : Except PyErr (NArr ℂ)) :=
        List.map_congr_left fun k hk => hv1 k (List.mem_range.1 hk)
      obtain ⟨u, hu1, hu2⟩ := sumArrays_ok [blockSize (env lRow) i, blockSize (env lChan) j, 1] v (env lSource).length hspos
      refine ⟨u, by dsimp only; rw [hmap, hu1]; rfl, fun x hx => ?_⟩
      simp only [List.zipWith_cons_cons, List.zipWith_nil_left, isIndex_cons, isIndex_nil] at hx
      obtain ⟨r, x1, rfl, hr, f, x2, rfl, hf, z, x3, rfl, hz, rfl⟩ := hx
      simp only [List.zipWith_cons_cons, List.zipWith_nil_left]
      rw [hu2, hwv _ (blockOff_lt hr) _ (blockOff_lt hf), ← sum_blocks (env lSource)]
      exact Finset.sum_congr rfl fun k hk => hv2 k (Finset.mem_range.1 hk) r hr f hf z
    · push Not at hall
      dsimp only [bind, Except.bind]
      rw [hbad hall]
      obtain ⟨s, hs, hb⟩ := hall
      obtain ⟨k, r, hk, hr, rfl⟩ := exists_block _ _ hs
      have hr0 : 0 < (env lRow).length := List.length_pos_iff.2 er.1.ne_nil
      have hf0 : 0 < (env lChan).length := List.length_pos_iff.2 ef.1.ne_nil
      refine ⟨[0, 0, 0], by simp [isBlock_cons, isBlock_nil, hr0, hf0], ?_⟩
      refine sumArrays_error _ _ ?_ ?_
      · exact List.mem_map.2 ⟨k, List.mem_range.2 hk, (hpart k hk 0 hr0 0 hf0).2 ⟨r, hr, hb⟩⟩
      · intro e he
        obtain ⟨k', hk', hke⟩ := List.mem_map.1 he
        have hk' := List.mem_range.1 hk'
        by_cases hg' : ∀ s < blockSize (env lSource) k', GoodSource (sourceType.val [blockOff (env lSource) k' + s]) ng
        · obtain ⟨v, hv, _⟩ := (hpart k' hk' 0 hr0 0 hf0).1 hg'
          rw [hv] at hke; cases hke
        · push Not at hg'
          rw [(hpart k' hk' 0 hr0 0 hf0).2 hg'] at hke
          exact (Except.error.inj hke).symm

/-- Two sources in two blocks, three rows in two, two channels in two; one source is a Gaussian. -/
example : WscleanArgs ⟨[[2, 1], [3]], fun _ => 1⟩ ⟨[[1, 1], [2]], fun _ => 0⟩
    ⟨[[2]], fun i => if i = [0] then "POINT" else "GAUSSIAN"⟩ ⟨[[1, 1]], fun _ => 1⟩ ⟨[[1, 1], [2]], fun _ => 1⟩
    (.array ⟨[[2]], fun _ => false⟩) ⟨[[2]], fun _ => 1⟩ ⟨[[2], [3]], fun _ => 0⟩ ⟨[[1, 1]], fun _ => 1⟩ := by
  refine ⟨⟨?_, ?_, ?_, ?_, ?_, ?_, ?_, ?_⟩, ?_, ?_, ?_, ?_, ⟨_, rfl⟩, ?_, ?_, ?_, ?_, ?_, ?_⟩ <;>
    simp [DArr.Valid, GoodChunks, DArr.dim, DArr.axis]

/-- **C116** The visibility of a row and a channel is the accumulated prediction of C40 for the spectra of C48. -/
theorem C116_cell (uvw lm : NArr ℝ) (sourceType : NArr String) (gaussShape frequency spectrum : NArr ℝ)
    (nr nf ns d e g : Nat) (hu : uvw.shape = [nr, d]) (hg : gaussShape.shape = [e, 3]) (hf : frequency.shape = [nf])
    (hs : spectrum.shape = [ns, g]) (a : NArr ℂ) (h : wsBody uvw lm sourceType gaussShape frequency spectrum = .ok a) :
    a.shape = [nr, nf, 1] ∧ ∀ r < nr, ∀ f < nf,
      wsPredictCell (uvw.val [r, 0], uvw.val [r, 1], uvw.val [r, 2]) (frequency.val [f]) f
        (fun s => ⟨lm.val [s, 0], lm.val [s, 1], sourceType.val [s], gaussShape.val [s, 0], gaussShape.val [s, 1],
          gaussShape.val [s, 2], fun f => spectrum.val [s, f]⟩) ns = .ok (a.val [r, f, 0]) := by
  obtain ⟨h1, h2⟩ := wsBody_cases uvw lm sourceType gaussShape frequency spectrum nr nf ns 3 d e g hu hg hf hs
  by_cases hall : ∀ s < ns, GoodSource (sourceType.val [s]) 3
  · obtain ⟨v, hv, hsum⟩ := h1 hall
    rw [hv] at h
    obtain rfl := Except.ok.inj h
    refine ⟨rfl, fun r hr f hf => ?_⟩
    dsimp only
    rw [hsum r hr f hf 0]
    clear h1 h2 hv hsum hs h
    unfold wsPredictCell
    induction ns with
    | zero => rfl
    | succ n ih =>
      rw [forRangeM_succ, ih (fun s hs => hall s (by omega)), Finset.sum_range_succ]
      show (if _ then _ else _ : Except PyErr ℂ) = _
      unfold sourceTerm
      rcases hall n (by omega) with h | ⟨h, _⟩
      · rw [if_pos h, if_pos h]
      · have hn : ¬ (sourceType.val [n] = "POINT") := by rw [h]; decide
        rw [if_neg hn, if_pos h, if_neg hn]
  · push Not at hall
    rw [h2 hall] at h
    cases h

/-- A boolean `log_poly`, which the numpy version accepts, raises `AttributeError`. -/
theorem C116_bool_refused (uvw lm : DArr ℝ) (sourceType : DArr String) (flux coeffs : DArr ℝ) (b : Bool)
    (refFreq gaussShape frequency : DArr ℝ) :
    daskWscleanPredict uvw lm sourceType flux coeffs (.bool b) refFreq gaussShape frequency = .error .attributeError := rfl

/-- **C116** fails with the coefficients in several blocks: only those of the first block are used. One point source at the
phase centre with flux 1 and two coefficients 1, at twice its reference frequency: 2 instead of 3. -/
theorem C116_violated :
    let uvw : DArr ℝ := ⟨[[1], [3]], fun _ => 0⟩
    let lm : DArr ℝ := ⟨[[1], [2]], fun _ => 0⟩
    let sourceType : DArr String := ⟨[[1]], fun _ => "POINT"⟩
    let flux : DArr ℝ := ⟨[[1]], fun _ => 1⟩
    let coeffs : DArr ℝ := ⟨[[1], [1, 1]], fun _ => 1⟩
    let logPoly : LogArg (DArr Bool) := .array ⟨[[1]], fun _ => false⟩
    let refFreq : DArr ℝ := ⟨[[1]], fun _ => 1⟩
    let gaussShape : DArr ℝ := ⟨[[1], [3]], fun _ => 0⟩
    let frequency : DArr ℝ := ⟨[[1]], fun _ => 2⟩
    (∃ l, daskWscleanPredict uvw lm sourceType flux coeffs logPoly refFreq gaussShape frequency = .ok l ∧
      ∃ k, l.block [0, 0, 0] = .ok k ∧ k.val [0, 0, 0] = 2) ∧
    ∃ a, npWscleanPredict uvw.whole lm.whole sourceType.whole flux.whole coeffs.whole logPoly.whole refFreq.whole
      gaussShape.whole frequency.whole = .ok a ∧ a.val [0, 0, 0] = 3 := by
  intro uvw lm sourceType flux coeffs logPoly refFreq gaussShape frequency
  have hv : ∀ n : Nat, spectra 1 1 1 1 n (fun _ => 1) (fun _ _ => 1) (.array 1 fun _ => false) (fun _ => 1) (fun _ => 2)
      (fun _ _ => 0) =
      .ok (Function.update (fun _ _ => 0) 0 (Function.update (fun _ => 0) 0 (ordCell 1 n (fun _ => 1) 2 1))) := by
    intro n
    simp [spectra, spectraSource, LogPoly.badShape, LogPoly.at, forRangeM, bind, Except.bind, pure, Except.pure]
  have hp : ∀ x : ℝ, wsPoint 0 0 0 0 0 2 x = x := by intro x; simp [wsPoint]
  constructor
  · obtain ⟨sp, hsp, hc, k, hk, hkv⟩ : ∃ sp, daskSpectra flux coeffs logPoly refFreq frequency = .ok sp ∧
        sp.chunks = [[1], [1]] ∧ ∃ k, sp.block [0, 0] = .ok k ∧ k.val [0, 0] = 2 := by
      set A : List Arg := [flux.arg [lSource], coeffs.arg [lSource, lSpi]] ++ LogArg.args logPoly ++
        [refFreq.arg [lSource], frequency.arg [lChan]] with hA
      have hu : unify A = .ok (unified A) := by
        unfold unify
        rw [if_pos (by decide), if_pos (by decide)]
      have u1 : unified A lSource = [1] := by decide
      have u2 : unified A lSpi = [1, 1] := by decide
      have u3 : unified A lChan = [1] := by decide
      unfold daskSpectra blockwise
      rw [if_pos (by decide), ← hA, hu]
      refine ⟨_, rfl, by simp [pick, u1, u3], ?_⟩
      dsimp only
      simp (decide := true) only [bind, Except.bind, fetch, DArr.rechunk, flux, coeffs, refFreq, frequency, logPoly, newChunks,
        List.zipWith_cons_cons, List.zipWith_nil_left, u1, u2, u3, nest, pick, List.zip_cons_cons, List.zip_nil_right, if_true,
        if_false, List.sum_cons, List.sum_nil, List.length_cons, List.length_nil, List.nil_append, List.cons_append,
        LogArg.fetch]
      have hr : List.range 2 = [0, 1] := rfl
      simp only [hr, List.map_cons, List.map_nil, Nest.firsts, Nest.item0, Nest.array, npSpectra, DArr.block,
        List.zipWith_cons_cons, List.zipWith_nil_left, blockSize, List.getD_cons_zero, LogArg.toPoly, List.headD_cons]
      refine ⟨_, rfl, ?_⟩
      simp [ordCell, forRange]
    have hasm : ∃ d, sp.assemble = .ok d ∧ d.chunks = [[1], [1]] ∧ d.val [0, 0] = 2 := by
      unfold Lazy.assemble
      simp [hc, allBlocks, firstError, hk, locate, hkv]
    obtain ⟨d, hd, hdc, hdv⟩ := hasm
    unfold daskWscleanPredict
    simp only [logPoly]
    rw [show daskSpectra flux coeffs (.array ⟨[[1]], fun _ => false⟩) refFreq frequency = .ok sp from hsp]
    dsimp only
    rw [hc]
    generalize hfun : wsTask uvw lm sourceType gaussShape frequency sp = T
    set B : List Arg := [uvw.arg [lRow, lUvw], lm.arg [lSource, lLmComp], sourceType.arg [lSource],
      gaussShape.arg [lSource, lGauss], frequency.arg [lChan], ([lSource, lChan], [[1], [1]])] with hB
    have hu : unify B = .ok (unified B) := by
      unfold unify
      rw [if_pos (by decide), if_pos (by decide)]
    have u1 : unified B lSource = [1] := by decide
    have u2 : unified B lRow = [1] := by decide
    have u3 : unified B lChan = [1] := by decide
    have u4 : unified B lUvw = [3] := by decide
    have u5 : unified B lLmComp = [2] := by decide
    have u6 : unified B lGauss = [3] := by decide
    unfold blockwise
    rw [if_pos (by decide), hu]
    refine ⟨_, rfl, ?_⟩
    dsimp only
    simp (decide := true) only [List.map_cons, List.map_nil, pick, if_true, if_false, u1, List.headD_cons, List.length_cons,
      List.length_nil, List.range_one, sumArrays, zero_add]
    rw [← hfun]
    unfold wsTask
    rw [hd]
    simp (decide := true) only [bind, Except.bind, fetch, DArr.rechunk, uvw, lm, sourceType, gaussShape, frequency, newChunks,
      List.zipWith_cons_cons, List.zipWith_nil_left, u1, u2, u3, u4, u5, u6, nest, pick, List.zip_cons_cons,
      List.zip_nil_right, if_true, if_false, List.sum_cons, List.sum_nil, List.length_cons, List.length_nil, List.nil_append,
      List.cons_append, hdc, Nest.firsts, Nest.item0, Nest.array, DArr.block]
    obtain ⟨v, h1, h2⟩ := (wsBody_cases
      ⟨[1, 3], fun _ => 0⟩ ⟨[1, 2], fun _ => 0⟩ ⟨[1], fun _ => "POINT"⟩ ⟨[1, 3], fun _ => 0⟩ ⟨[1], fun _ => 2⟩
      ⟨[1, 1], fun i => d.val (List.zipWith (fun x1 x2 => x1 + x2) [blockOff [1] 0, blockOff [1] 0] i)⟩
      1 1 1 3 3 1 1 rfl rfl rfl rfl).1 (fun _ _ => Or.inl rfl)
    refine ⟨_, h1, ?_⟩
    dsimp only
    rw [h2 0 (by norm_num) 0 (by norm_num) 0]
    simp [sourceTerm, hp, blockOff_zero, hdv]
  · obtain ⟨v, h1, h2⟩ := (wsBody_cases
      ⟨[1, 3], fun _ => 0⟩ ⟨[1, 2], fun _ => 0⟩ ⟨[1], fun _ => "POINT"⟩ ⟨[1, 3], fun _ => 0⟩ ⟨[1], fun _ => 2⟩
      ⟨[1, 1], fun x => match x with
        | [s, f] => Function.update (fun _ _ => (0 : ℝ)) 0 (Function.update (fun _ => 0) 0 (ordCell 1 2 (fun _ => 1) 2 1)) s f
        | _ => 0⟩
      1 1 1 3 3 1 1 rfl rfl rfl rfl).1 (fun _ _ => Or.inl rfl)
    refine ⟨⟨[1, 1, 1], v⟩, ?_, ?_⟩
    · rw [← h1]
      simp only [npWscleanPredict, npSpectra, uvw, lm, sourceType, flux, coeffs, logPoly, refFreq, gaussShape, frequency,
        DArr.whole, List.map_cons, List.map_nil, List.sum_cons, List.sum_nil, Nat.reduceAdd, LogArg.whole, LogArg.toPoly,
        List.headD_cons, add_zero, hv 2, bind, Except.bind]
      rfl
    · dsimp only
      rw [h2 0 (by norm_num) 0 (by norm_num) 0]
      simp [sourceTerm, hp, ordCell, forRange, List.range_succ]
      norm_num

end Verif.Dask
