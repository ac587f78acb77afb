/-
C123: degridding dask arrays with nifty_gridder. C124: images from grids, grids from images, and the pickled configuration.
-/
import Verif.Gridding.NiftyDaskProps
import Mathlib.Algebra.Order.BigOperators.Group.Finset

set_option autoImplicit false

namespace Verif.Nifty

open Verif.Dask

variable {R K : Type}

/-- The lazy visibilities of one correlation. -/
theorem degridCorr_ok [Zero K] (lib : Lib R K) {grid : DArr K} {uvw : DArr R} {flags : DArr Bool} {freq : DArr R}
    {rows cu cv cf : List Nat} {nchan ncorr : Nat} (wmin wmax : R)
    (h : DegridArgs grid uvw flags freq rows cu cv cf nchan ncorr) {o : Objs (Baselines R)} (ho : o.rows = rows)
    (hb : ∀ i < rows.length, o.block i = .ok (blockBaselines uvw freq rows nchan i)) {c : Nat} (hc : c < ncorr) :
    ∃ x, degridCorr lib o grid flags nchan wmin wmax c = .ok x ∧ x.chunks = [rows, [nchan]] ∧
      ∀ i < rows.length, x.block [i, 0] = if cu.length = 1 ∧ cv.length = 1 then
        (lib.getIndices (blockBaselines uvw freq rows nchan i) (blockRows flags rows cf c i) wmin wmax).bind fun idx =>
          lib.grid2ms (blockBaselines uvw freq rows nchan i) idx ⟨[cu.sum, cv.sum], fun x => grid.val (List.zipWith (· + ·) [0, 0] x ++ [c])⟩
        else .error .assertionError := by
  obtain ⟨gr, -, -, ⟨e1, hg, rfl⟩, ⟨e2, hf, h2⟩, ⟨gu, gv⟩, ⟨gf, -⟩, -⟩ := h
  obtain ⟨x, hx, xr, xb⟩ := indices_ok lib (flags := flags) (c := c) wmin wmax gr ho gf
  simp only [degridCorr, corrSlice_ok hg hc, corrSlice_ok hf (h2 ▸ hc), bind, Except.bind, hx]
  generalize hG : (⟨[cu, cv], fun i => grid.val (i ++ [c])⟩ : DArr K) = G
  have hGc : G.chunks = [cu, cv] := by rw [← hG]
  generalize hF : (fun (env : Label → List Nat) (out : List (Label × Nat)) => _ : (Label → List Nat) → List (Label × Nat) → Except PyErr (NArr K)) = F
  obtain ⟨env, hR, he⟩ := blockwise_any_axes [lRow, lChan] [(lChan, nchan)] [G.arg [lNy, lNx], o.arg, x.arg] F
    (extents [(lRow, rows.sum), (lNy, cu.sum), (lNx, cv.sum)]) (by simp [Objs.arg])
    (by simp (decide := true) [DArr.arg, Objs.arg, hGc, ho, xr, gr, gu, gv, extents, pick])
  have hU := hR.unified
  have kr : env lRow = rows := hU.kept _ _ (by simp (decide := true) [chunksFor, DArr.arg, Objs.arg, hGc, ho, xr])
    (by simp (decide := true) [chunksFor, DArr.arg, Objs.arg, hGc, ho, xr])
  have ku : env lNy = cu := hU.kept _ _ (by simp (decide := true) [chunksFor, DArr.arg, Objs.arg, hGc, ho, xr])
    (by simp (decide := true) [chunksFor, DArr.arg, Objs.arg, hGc, ho, xr])
  have kv : env lNx = cv := hU.kept _ _ (by simp (decide := true) [chunksFor, DArr.arg, Objs.arg, hGc, ho, xr])
    (by simp (decide := true) [chunksFor, DArr.arg, Objs.arg, hGc, ho, xr])
  refine ⟨_, he, by simp (decide := true) [outChunks, pick, kr], fun i hi => ?_⟩
  subst hF
  dsimp only
  simp (decide := true) only [List.zip_cons_cons, List.zip_nil_right, pick, if_true, Option.getD_some]
  rw [fetch_eq hU G _ (by simp) (by simp [hGc]),
    objs_fetch hU o (by simp) (by rw [kr, ho]) (by rw [ho]; exact hi),
    objs_fetch hU x (by simp) (by rw [kr, xr]) (by rw [xr]; exact hi), xb i hi, hb i hi]
  simp (decide := true) only [nest, List.map_cons, List.map_nil, pick, if_false, List.nil_append, ku, kv]
  by_cases h1 : cu.length = 1
  · by_cases h2 : cv.length = 1
    · rw [if_pos ⟨h1, h2⟩]
      obtain ⟨a, rfl⟩ := List.length_eq_one_iff.1 h1
      obtain ⟨b, rfl⟩ := List.length_eq_one_iff.1 h2
      simp [List.range_succ, onlyBlock, Except.bind, Nest.array, DArr.block, blockSize_single, blockOff_zero, ← hG]
    · rw [if_neg fun h => h2 h.2]
      obtain ⟨a, rfl⟩ := List.length_eq_one_iff.1 h1
      match cv, gv.ne_nil, h2 with
      | _ :: _ :: _, _, _ => simp [onlyBlock, List.range_succ_eq_map]
  · rw [if_neg fun h => h1 h.1]
    match cu, gu.ne_nil, h1 with
    | _ :: _ :: _, _, _ => simp [onlyBlock, List.range_succ_eq_map]

/-- The lazy visibilities of all correlations. -/
theorem daskDegrid_ok [Zero K] (lib : Lib R K) {grid : DArr K} {uvw : DArr R} {flags : DArr Bool} {freq : DArr R}
    {rows cu cv cf : List Nat} {nchan ncorr : Nat} (wmin wmax : R)
    (h : DegridArgs grid uvw flags freq rows cu cv cf nchan ncorr) :
    ∃ l, daskDegrid lib grid uvw flags freq wmin wmax = .ok l ∧ l.chunks = [rows, [nchan], List.replicate ncorr 1] ∧
      ∀ i < rows.length, ∀ c < ncorr, l.block [i, 0, c] = if cu.length = 1 ∧ cv.length = 1 then
        ((lib.getIndices (blockBaselines uvw freq rows nchan i) (blockRows flags rows cf c i) wmin wmax).bind fun idx =>
          lib.grid2ms (blockBaselines uvw freq rows nchan i) idx
            ⟨[cu.sum, cv.sum], fun x => grid.val (List.zipWith (· + ·) [0, 0] x ++ [c])⟩).map
              fun a => ⟨a.shape ++ [1], fun i => a.val (i.take 2)⟩
        else .error .assertionError := by
  obtain ⟨o, ho, hr, hb⟩ := baselines_ok h.goodRows h.uvw h.freq
  obtain ⟨e, hg, he⟩ := h.grid
  have hx : ∀ c < ncorr, _ := fun c hc => degridCorr_ok lib wmin wmax h hr hb hc
  have : Inhabited (Lazy K) := ⟨⟨[], fun _ => .error .valueError⟩⟩
  choose! x hx1 hx2 hx3 using hx
  have hm := mapM_range (degridCorr lib o grid flags nchan wmin wmax) x ncorr hx1
  obtain ⟨n, rfl⟩ : ∃ n, ncorr = n + 1 := ⟨ncorr - 1, by have := h.someCorr; omega⟩
  have hl : (List.range (n + 1)).map x = x 0 :: (List.range n).map fun i => x (i + 1) := by
    rw [List.range_succ_eq_map]; simp [Function.comp_def]
  have hd : daskDegrid lib grid uvw flags freq wmin wmax = stack ((List.range (n + 1)).map x) := by
    simp [daskDegrid, h.freq, hg, he, ho, hm, bind, Except.bind]
  rw [hd, hl]
  refine ⟨_, rfl, by simp [hx2 0 (by omega)], fun i hi c hc => ?_⟩
  dsimp only
  have hget : (x 0 :: (List.range n).map fun i => x (i + 1))[([i, 0, c] : List Nat).getD 2 0]? = some (x c) := by
    rw [← hl]
    simp [hc]
  rw [hget]
  dsimp only
  rw [show ([i, 0, c] : List Nat).take 2 = [i, 0] from rfl, hx3 c hc i hi]
  split_ifs with h1
  · generalize Except.bind _ _ = r
    cases r <;> rfl
  · rfl

/-- **C123** Degridding dask arrays: with a grid in one chunk and the channels in one chunk, for any chunks of the rows,
the blocks are the parts of the visibilities degridded from the whole arrays: the value the library gives to each sample
that is not flagged and in range, 0 for the others. -/
theorem C123_degrid [Zero K] (lib : Lib R K) {grid : DArr K} {uvw : DArr R} {flags : DArr Bool} {freq : DArr R}
    {rows : List Nat} {nchan ncorr : Nat} (wmin wmax : R)
    (h : DegridArgs grid uvw flags freq rows [lib.nu] [lib.nv] [nchan] nchan ncorr) :
    ∃ l, daskDegrid lib grid uvw flags freq wmin wmax = .ok l ∧
      l.Computes (degridWhole lib grid uvw flags freq wmin wmax ncorr) := by
  obtain ⟨l, hl, hch, hb⟩ := daskDegrid_ok lib wmin wmax h
  refine ⟨l, hl, by simp [hch, degridWhole, DArr.dim, DArr.axis, h.uvw, h.freq], fun b hbk => ?_⟩
  rw [hch] at hbk
  simp only [isBlock_cons, isBlock_nil] at hbk
  obtain ⟨i, _, rfl, hi, j, _, rfl, hj, c, _, rfl, hc, rfl⟩ := hbk
  obtain rfl : j = 0 := by simpa using hj
  rw [List.length_replicate] at hc
  rw [hb i hi c hc, if_pos ⟨rfl, rfl⟩, hch]
  have e1 : lib.getIndices (blockBaselines uvw freq rows nchan i) (blockRows flags rows [nchan] c i) wmin wmax =
      .ok fun r f => Selected lib uvw flags freq wmin wmax c (blockOff rows i + r) f := by
    unfold Lib.getIndices
    rw [if_pos (by rfl)]
    simp [Selected, blockRows, blockBaselines]
  have e2 : ∀ idx g, lib.grid2ms (blockBaselines uvw freq rows nchan i) idx ⟨[[lib.nu].sum, [lib.nv].sum], g⟩ = .ok _ :=
    fun idx g => if_pos rfl
  rw [e1]
  dsimp only [Except.bind]
  rw [e2]
  refine ⟨_, rfl, ?_, ?_⟩
  · simp [blockBaselines, blockSize, hc, List.getD_eq_getElem?_getD]
  · intro x hx
    simp only [blockBaselines, List.cons_append, List.nil_append, isIndex_cons, isIndex_nil] at hx
    obtain ⟨r, _, rfl, hr, f, _, rfl, hf, k, _, rfl, hk, rfl⟩ := hx
    obtain rfl : k = 0 := by omega
    have hoff : blockOff (List.replicate ncorr 1) c = c := by
      simp [blockOff, List.take_replicate, Nat.min_eq_left hc.le]
    simp [degridWhole, degridVis, blockBaselines, blockOff_zero, hoff]

/-- **C123** Frequencies in several chunks are refused. -/
theorem C123_frequency_chunks [Zero K] (lib : Lib R K) (grid : DArr K) (uvw : DArr R) (flags : DArr Bool) (freq : DArr R)
    (wmin wmax : R) (h : (freq.axis 0).length ≠ 1) :
    daskDegrid lib grid uvw flags freq wmin wmax = .error .valueError := if_pos h

/-- **C123** A grid in several chunks, or flags in several chunks along the channels: every block raises. -/
theorem C123_chunks [Zero K] (lib : Lib R K) {grid : DArr K} {uvw : DArr R} {flags : DArr Bool} {freq : DArr R}
    {rows cu cv cf : List Nat} {nchan ncorr : Nat} (wmin wmax : R)
    (h : DegridArgs grid uvw flags freq rows cu cv cf nchan ncorr) (hs : cu.length ≠ 1 ∨ cv.length ≠ 1 ∨ cf.length ≠ 1) :
    ∃ l, daskDegrid lib grid uvw flags freq wmin wmax = .ok l ∧ ∀ b, IsBlock l.chunks b → ∃ e, l.block b = .error e := by
  obtain ⟨l, hl, hch, hb⟩ := daskDegrid_ok lib wmin wmax h
  refine ⟨l, hl, fun b hbk => ?_⟩
  rw [hch] at hbk
  simp only [isBlock_cons, isBlock_nil] at hbk
  obtain ⟨i, _, rfl, hi, j, _, rfl, hj, c, _, rfl, hc, rfl⟩ := hbk
  obtain rfl : j = 0 := by simpa using hj
  rw [List.length_replicate] at hc
  rw [hb i hi c hc]
  split_ifs with h1
  · have h2 : cf.length ≠ 1 := by tauto
    have h3 : blockSize cf 0 ≠ nchan := by
      rw [← h.goodFlags.2]
      rcases h.goodFlags.1 with rfl | ⟨hne, hp⟩
      · simp at h2
      · match cf, hne with
        | [a], _ => simp at h2
        | a :: b :: l, _ =>
          have := hp b (by simp)
          simp [blockSize]
          omega
    have e : lib.getIndices (blockBaselines uvw freq rows nchan i) (blockRows flags rows cf c i) wmin wmax =
        .error .runtimeError := if_neg (by simpa [blockRows, blockBaselines] using h3)
    rw [e]
    exact ⟨_, rfl⟩
  · exact ⟨_, rfl⟩

/-! ### C124 -/

theorem perCorr_agrees {A B : Type} [Inhabited B] (n m n' m' : Nat) (f : (Nat → Nat → A) → Nat → Nat → B) (a : DArr A) (p q : Nat)
    (c : List Nat) (hc : GoodChunks c) (h : a.chunks = [[p], [q], c]) :
    (daskPerCorr n m n' m' f a).Agrees (perCorr n m n' m' f a.whole) := by
  refine Lazy.agrees_blocks ?_ ?_ ?_
  · simp [daskPerCorr, h, hc.ne_nil]
  · intro x hx
    simp only [perCorr, DArr.whole, h, List.map_cons, List.map_nil, List.sum_singleton] at hx
    split_ifs at hx
    cases hx
    simp [daskPerCorr, h]
  · intro b hb
    simp only [daskPerCorr, h, List.getD_cons_zero, List.getD_cons_succ, List.length_singleton, isBlock_cons, isBlock_nil,
      List.length_replicate] at hb
    obtain ⟨i, _, rfl, hi, j, _, rfl, hj, k, _, rfl, hk, rfl⟩ := hb
    obtain rfl : i = 0 := by omega
    obtain rfl : j = 0 := by omega
    have hpos := hc.block_pos hk
    simp only [perCorr, daskPerCorr, DArr.whole, DArr.block, h, List.map_cons, List.map_nil, List.sum_singleton,
      List.zipWith_cons_cons, List.zipWith_nil_right, blockSize_single, List.getD_cons_zero, List.getD_cons_succ,
      List.length_singleton, List.replicate_one, blockOff_zero]
    by_cases h0 : c.sum = 0
    · rw [if_pos h0, if_pos (by omega)]
      rfl
    · rw [if_neg h0, if_neg (by omega)]
      split_ifs with h1
      · refine ⟨_, rfl, fun x hx => ?_⟩
        simp only [isIndex_cons, isIndex_nil] at hx
        obtain ⟨u, _, rfl, hu, v, _, rfl, hv, w, _, rfl, hw, rfl⟩ := hx
        simp
      · rfl

/-- **C124** `dirty` of a dask grid whose first two axes are in one chunk each: the outcome of the library on each
correlation of the whole grid, for any chunks of the correlations. -/
theorem C124_dirty [Inhabited R] (lib : Lib R K) (grid : DArr K) (p q : Nat) (c : List Nat) (hc : GoodChunks c)
    (h : grid.chunks = [[p], [q], c]) :
    (daskDirty lib grid).Agrees (perCorr lib.nu lib.nv lib.nx lib.ny lib.toDirty grid.whole) :=
  perCorr_agrees _ _ _ _ _ _ _ _ _ hc h

/-- **C124** `model` of a dask image whose first two axes are in one chunk each. -/
theorem C124_model [Inhabited K] (lib : Lib R K) (image : DArr K) (p q : Nat) (c : List Nat) (hc : GoodChunks c)
    (h : image.chunks = [[p], [q], c]) :
    (daskModel lib image).Agrees (perCorr lib.nx lib.ny lib.nu lib.nv lib.toGrid image.whole) :=
  perCorr_agrees _ _ _ _ _ _ _ _ _ hc h

/-- What the library gives for a whole array of the right extents: every correlation by itself. -/
theorem C124_whole {A B : Type} [Inhabited B] (n m n' m' : Nat) (f : (Nat → Nat → A) → Nat → Nat → B) (a : NArr A) (c : Nat)
    (hc : 0 < c) (h : a.shape = [n, m, c]) :
    ∃ r, perCorr n m n' m' f a = .ok r ∧ r.shape = [n', m', c] ∧
      ∀ x y k, r.val [x, y, k] = f (fun u v => a.val [u, v, k]) x y := by
  unfold perCorr
  rw [h]
  dsimp only
  rw [if_neg (by omega), if_pos ⟨rfl, rfl⟩]
  exact ⟨_, rfl, rfl, fun _ _ _ => rfl⟩

/-- **C124** In several chunks along the first or second axis, every block raises, and the declared extents are not those
of the image. -/
theorem C124_chunks {A B : Type} [Inhabited B] (n m n' m' : Nat) (f : (Nat → Nat → A) → Nat → Nat → B) (a : DArr A)
    (c1 c2 c : List Nat) (h1 : GoodChunks c1) (h2 : GoodChunks c2) (h : a.chunks = [c1, c2, c])
    (hn : c1.sum = n) (hm : c2.sum = m) (hs : c1.length ≠ 1 ∨ c2.length ≠ 1) (hn' : 0 < n') (hm' : 0 < m') :
    (∀ b, IsBlock (daskPerCorr n m n' m' f a).chunks b → ∃ e, (daskPerCorr n m n' m' f a).block b = .error e) ∧
    (daskPerCorr n m n' m' f a).chunks.map List.sum ≠ [n', m', c.sum] := by
  have hsmall : ∀ l : List Nat, GoodChunks l → l.length ≠ 1 → ∀ i < l.length, blockSize l i ≠ l.sum := by
    intro l hg hl i hi h0
    have h2 : 1 < l.length := by have := List.length_pos_iff.2 hg.ne_nil; omega
    have hp := hg.pos_of_long h2
    have hsum := sum_blocks l fun _ => 1
    simp only [Finset.sum_const, Finset.card_range, smul_eq_mul, mul_one] at hsum
    obtain ⟨j, hj, hij⟩ : ∃ j < l.length, j ≠ i := by
      rcases Nat.eq_zero_or_pos i with rfl | h
      · exact ⟨1, h2, by omega⟩
      · exact ⟨0, by omega, by omega⟩
    have hle : blockSize l i + blockSize l j ≤ ∑ k ∈ Finset.range l.length, blockSize l k := by
      rw [← Finset.sum_pair (f := blockSize l) (Ne.symm hij)]
      exact Finset.sum_le_sum_of_subset (by
        intro k hk
        simp only [Finset.mem_insert, Finset.mem_singleton] at hk
        rcases hk with rfl | rfl <;> simpa)
    have : 0 < blockSize l j := by
      have : blockSize l j = l[j] := by simp [blockSize, hj, List.getD_eq_getElem?_getD]
      rw [this]
      exact hp _ (List.getElem_mem _)
    omega
  constructor
  · intro b hb
    simp only [daskPerCorr, h, List.getD_cons_zero, List.getD_cons_succ, isBlock_cons, isBlock_nil,
      List.length_replicate] at hb
    obtain ⟨i, _, rfl, hi, j, _, rfl, hj, k, _, rfl, hk, rfl⟩ := hb
    simp only [perCorr, daskPerCorr, DArr.block, h, List.zipWith_cons_cons, List.zipWith_nil_right]
    have : ¬ (blockSize c1 i = n ∧ blockSize c2 j = m) := by
      rintro ⟨e1, e2⟩
      rcases hs with hs | hs
      · exact hsmall c1 h1 hs i hi (by rw [e1, hn])
      · exact hsmall c2 h2 hs j hj (by rw [e2, hm])
    rw [if_neg this]
    split_ifs <;> exact ⟨_, rfl⟩
  · intro he
    simp only [daskPerCorr, h, List.getD_cons_zero, List.getD_cons_succ, List.map_cons, List.map_nil, List.sum_replicate,
      smul_eq_mul, List.cons.injEq, and_true] at he
    have g1 := List.length_pos_iff.2 h1.ne_nil
    have g2 := List.length_pos_iff.2 h2.ne_nil
    rcases hs with hs | hs
    · have : 2 * n' ≤ c1.length * n' := Nat.mul_le_mul_right _ (by omega)
      omega
    · have : 2 * m' ≤ c2.length * m' := Nat.mul_le_mul_right _ (by omega)
      omega

/-- **C124** A configuration survives pickling, and two of them have the same token only if they are the same. -/
theorem C124_pickle (nx ny : Nat) (eps csx csy : R) :
    unpickle (mkWrapper nx ny eps csx csy).reduce = mkWrapper nx ny eps csx csy ∧
      (unpickle (mkWrapper nx ny eps csx csy).reduce).config = (nx, ny, eps, csx, csy) := ⟨rfl, rfl⟩

theorem C124_token (nx ny nx' ny' : Nat) (eps csx csy eps' csx' csy' : R) :
    (mkWrapper nx ny eps csx csy).token = (mkWrapper nx' ny' eps' csx' csy').token ↔
      mkWrapper nx ny eps csx csy = mkWrapper nx' ny' eps' csx' csy' := by
  simp only [ConfigWrapper.token, mkWrapper, Prod.mk.injEq, ConfigWrapper.mk.injEq]
  tauto

end Verif.Nifty
