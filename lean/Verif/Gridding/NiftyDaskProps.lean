/-
C122: gridding dask arrays with nifty_gridder.
-/
import Verif.Gridding.NiftyDaskSpec
import Verif.Gridding.NiftyProps
import Verif.Dask.Lemmas
import Mathlib.Algebra.BigOperators.Pi

set_option autoImplicit false

namespace Verif.Nifty

open Verif.Dask

variable {R K : Type}

/-- What a task gets of an array with a row axis and one contracted axis. -/
theorem fetch_row {α : Type} {args : List Arg} {ext : Label → Nat} {env : Label → List Nat} (hU : Unified args ext env)
    (d : DArr α) {l : Label} (hl : l ≠ lRow) {c1 c2 : List Nat} (hc : d.chunks = [c1, c2]) (hd : d.arg [lRow, l] ∈ args)
    {i : Nat} (hi : i < (env lRow).length) :
    Verif.Dask.fetch env d [lRow, l] [(lRow, i)] = .node ((List.range (env l).length).map fun k => .leaf
      ⟨[blockSize (env lRow) i, blockSize (env l) k],
        fun x => d.val (List.zipWith (· + ·) [blockOff (env lRow) i, blockOff (env l) k] x)⟩) := by
  rw [fetch_eq hU d _ hd (by simp [hc])]
  simp only [nest, List.map_cons, List.map_nil, pick, if_true, Ne.symm hl, if_false, List.nil_append, pick_block hi]
  rfl

theorem fetch_one {α : Type} {args : List Arg} {ext : Label → Nat} {env : Label → List Nat} (hU : Unified args ext env)
    (d : DArr α) {l : Label} (hl : l ≠ lRow) {c : List Nat} (hc : d.chunks = [c]) (hd : d.arg [l] ∈ args) (i : Nat) :
    Verif.Dask.fetch env d [l] [(lRow, i)] = .node ((List.range (env l).length).map fun k => .leaf
      ⟨[blockSize (env l) k], fun x => d.val (List.zipWith (· + ·) [blockOff (env l) k] x)⟩) := by
  rw [fetch_eq hU d _ hd (by simp [hc])]
  simp only [nest, List.map_cons, List.map_nil, pick, Ne.symm hl, if_false, List.nil_append]
  rfl

theorem rowwise_ok {β : Type} (args : List Arg) (f : (Label → List Nat) → Nat → Except PyErr β) (ext : Label → Nat)
    (h : ∀ a ∈ args, List.Forall₂ (fun l c => GoodChunks c ∧ c.sum = ext l) a.1 a.2) :
    ∃ env, Unified args ext env ∧ rowwise args f = .ok ⟨env lRow, f env⟩ := by
  obtain ⟨env, he, hU⟩ := unify_ok args ext (fun a ha => (h a ha).length_eq) fun a ha p hp => by
    have := List.forall₂_iff_zip.1 (h a ha)
    exact this.2 hp
  exact ⟨env, hU, by simp only [rowwise, he]⟩

theorem objs_fetch {β : Type} {args : List Arg} {ext : Label → Nat} {env : Label → List Nat} (hU : Unified args ext env)
    (o : Objs β) (ha : o.arg ∈ args) (he : env lRow = o.rows) {i : Nat} (hi : i < o.rows.length) :
    o.fetch env i = o.block i := by
  unfold Objs.fetch
  rw [if_pos ((hU.same _ ha (lRow, o.rows) (by simp [Objs.arg])).trans he), pick_block hi]

/-- The baselines of a row block. -/
def blockBaselines (uvw freq : DArr R) (rows : List Nat) (nchan i : Nat) : Baselines R :=
  ⟨blockSize rows i, nchan, fun r k => uvw.val [blockOff rows i + r, k], fun k => freq.val [k]⟩

theorem baselines_ok {uvw freq : DArr R} {rows : List Nat} {nchan : Nat} (hr : GoodChunks rows)
    (hu : uvw.chunks = [rows, [3]]) (hf : freq.chunks = [[nchan]]) :
    ∃ o, daskBaselines uvw freq = .ok o ∧ o.rows = rows ∧
      ∀ i < rows.length, o.block i = .ok (blockBaselines uvw freq rows nchan i) := by
  have g3 : GoodChunks [3] := .inr ⟨by simp, by simp⟩
  have gn : GoodChunks [nchan] := by
    rcases Nat.eq_zero_or_pos nchan with h | h
    · exact .inl (by rw [h])
    · exact .inr ⟨by simp, by simpa using h⟩
  unfold daskBaselines
  generalize hF : (fun (env : Label → List Nat) (i : Nat) => do
    let f ← onlyBlock (Verif.Dask.fetch env freq [lChan] [(lRow, i)])
    mkBaselines (← (Verif.Dask.fetch env uvw [lRow, lUvw] [(lRow, i)]).firsts 1) (← f.array)) = F
  obtain ⟨env, hU, he⟩ := rowwise_ok [uvw.arg [lRow, lUvw], freq.arg [lChan]] F
    (extents [(lRow, rows.sum), (lUvw, 3), (lChan, nchan)])
    (by simp (decide := true) [DArr.arg, hu, hf, hr, g3, gn, extents, pick])
  have kr : env lRow = rows := hU.kept _ _ (by simp (decide := true) [chunksFor, DArr.arg, hu, hf])
    (by simp (decide := true) [chunksFor, DArr.arg, hu, hf])
  have ku : env lUvw = [3] := hU.kept _ _ (by simp (decide := true) [chunksFor, DArr.arg, hu, hf])
    (by simp (decide := true) [chunksFor, DArr.arg, hu, hf])
  have kc : env lChan = [nchan] := hU.kept _ _ (by simp (decide := true) [chunksFor, DArr.arg, hu, hf])
    (by simp (decide := true) [chunksFor, DArr.arg, hu, hf])
  refine ⟨_, he, kr, fun i hi => ?_⟩
  subst hF
  dsimp only
  rw [fetch_one hU freq (by decide) hf (by simp), fetch_row hU uvw (by decide) hu (by simp) (by rw [kr]; exact hi)]
  simp [kr, ku, kc, onlyBlock, Nest.firsts, Nest.item0, Nest.array, mkBaselines, bind, Except.bind, blockSize_single,
    blockOff_zero, blockBaselines, List.range_succ]

/-- Rows of a block of an array, with the first channel block. -/
def blockRows {α : Type} (d : DArr α) (rows chans : List Nat) (c i : Nat) : NArr α :=
  ⟨[blockSize rows i, blockSize chans 0], fun x => d.val (List.zipWith (· + ·) [blockOff rows i, 0] x ++ [c])⟩

theorem corrSlice_ok {α : Type} {d : DArr α} {a b e : List Nat} (h : d.chunks = [a, b, e]) {c : Nat} (hc : c < e.sum) :
    corrSlice d c = .ok ⟨[a, b], fun i => d.val (i ++ [c])⟩ := by
  simp [corrSlice, h, hc]

theorem indices_ok (lib : Lib R K) {o : Objs (Baselines R)} {flags : DArr Bool} {rows cf : List Nat} {c : Nat}
    (wmin wmax : R) (hr : GoodChunks rows) (ho : o.rows = rows) (hg : GoodChunks cf) :
    ∃ x, daskIndices lib o ⟨[rows, cf], fun i => flags.val (i ++ [c])⟩ wmin wmax = .ok x ∧ x.rows = rows ∧
      ∀ i < rows.length, x.block i = (o.block i).bind fun b => lib.getIndices b (blockRows flags rows cf c i) wmin wmax := by
  unfold daskIndices
  generalize hd : (⟨[rows, cf], fun i => flags.val (i ++ [c])⟩ : DArr Bool) = d
  have hdc : d.chunks = [rows, cf] := by rw [← hd]
  generalize hF : (fun (env : Label → List Nat) (i : Nat) => do
    lib.getIndices (← o.fetch env i) (← (Verif.Dask.fetch env d [lRow, lChan] [(lRow, i)]).firsts 1) wmin wmax) = F
  obtain ⟨env, hU, he⟩ := rowwise_ok [o.arg, d.arg [lRow, lChan]] F (extents [(lRow, rows.sum), (lChan, cf.sum)])
    (by simp (decide := true) [DArr.arg, Objs.arg, hdc, ho, hr, hg, extents, pick])
  have kr : env lRow = rows := hU.kept _ _ (by simp (decide := true) [chunksFor, DArr.arg, Objs.arg, hdc, ho])
    (by simp (decide := true) [chunksFor, DArr.arg, Objs.arg, hdc, ho])
  have kc : env lChan = cf := hU.kept _ _ (by simp (decide := true) [chunksFor, DArr.arg, Objs.arg, hdc, ho])
    (by simp (decide := true) [chunksFor, DArr.arg, Objs.arg, hdc, ho])
  refine ⟨_, he, kr, fun i hi => ?_⟩
  subst hF
  dsimp only
  rw [fetch_row hU d (by decide) hdc (by simp) (by rw [kr]; exact hi),
    objs_fetch hU o (by simp) (by rw [kr, ho]) (by rw [ho]; exact hi)]
  obtain ⟨m, hm⟩ : ∃ m, cf.length = m + 1 := ⟨cf.length - 1, by have := List.length_pos_iff.2 hg.ne_nil; omega⟩
  cases o.block i with
  | error e => rfl
  | ok b =>
    simp [kr, kc, hm, Nest.firsts, Nest.item0, Nest.array, bind, Except.bind, List.range_succ_eq_map, blockRows, ← hd,
      blockOff_zero]

/-- Without streams: what gridding each row block gives. -/
theorem part_none [AddCommMonoid K] (lib : Lib R K) {vis : DArr K} {uvw : DArr R} {flags : DArr Bool}
    {weights freq : DArr R} {rows cv cf : List Nat} {nchan ncorr : Nat} (wmin wmax : R)
    (h : GridArgs vis uvw flags weights freq rows cv cf cv nchan ncorr) {o : Objs (Baselines R)} (ho : o.rows = rows)
    {c : Nat} (hc : c < ncorr) : ∃ x, gridCorr lib o vis flags weights wmin wmax none c = .ok x ∧ x.streams = none ∧
      x.blocks = rows.length ∧ ∀ i < rows.length, x.part i =
        if cv.length = 1 then (o.block i).bind fun b => (lib.getIndices b (blockRows flags rows cf c i) wmin wmax).bind
          fun idx => lib.ms2grid b idx (blockRows vis rows cv c i) (blockRows weights rows cv c i)
        else .error .assertionError := by
  obtain ⟨gr, -, -, ⟨e1, hv, rfl⟩, ⟨e2, hf, h2⟩, ⟨e3, hw, h3⟩, ⟨gv, -⟩, ⟨gf, -⟩, -, -⟩ := h
  obtain ⟨x, hx, xr, xb⟩ := indices_ok lib (flags := flags) (c := c) wmin wmax gr ho gf
  have hgo : gridCorr lib o vis flags weights wmin wmax none c = (rowwise [o.arg, x.arg,
      (⟨[rows, cv], fun i => vis.val (i ++ [c])⟩ : DArr K).arg [lRow, lChan],
      (⟨[rows, cv], fun i => weights.val (i ++ [c])⟩ : DArr R).arg [lRow, lChan]] fun env i => do
      let v ← onlyBlock (Verif.Dask.fetch env (⟨[rows, cv], fun i => vis.val (i ++ [c])⟩ : DArr K) [lRow, lChan] [(lRow, i)])
      lib.ms2grid (← o.fetch env i) (← x.fetch env i) (← v.array)
        (← (Verif.Dask.fetch env (⟨[rows, cv], fun i => weights.val (i ++ [c])⟩ : DArr R) [lRow, lChan]
          [(lRow, i)]).firsts 1)).bind fun y => .ok ⟨none, y.rows.length, y.block⟩ := by
    simp only [gridCorr, corrSlice_ok hv hc, corrSlice_ok hf (h2 ▸ hc), corrSlice_ok hw (h3 ▸ hc), bind, Except.bind, hx]
    rfl
  rw [hgo]
  generalize hV : (⟨[rows, cv], fun i => vis.val (i ++ [c])⟩ : DArr K) = V
  generalize hW : (⟨[rows, cv], fun i => weights.val (i ++ [c])⟩ : DArr R) = W
  have hVc : V.chunks = [rows, cv] := by rw [← hV]
  have hWc : W.chunks = [rows, cv] := by rw [← hW]
  generalize hF : (fun (env : Label → List Nat) (i : Nat) => do
    let v ← onlyBlock (Verif.Dask.fetch env V [lRow, lChan] [(lRow, i)])
    lib.ms2grid (← o.fetch env i) (← x.fetch env i) (← v.array)
      (← (Verif.Dask.fetch env W [lRow, lChan] [(lRow, i)]).firsts 1)) = F
  obtain ⟨env, hU, he⟩ := rowwise_ok [o.arg, x.arg, V.arg [lRow, lChan], W.arg [lRow, lChan]] F
    (extents [(lRow, rows.sum), (lChan, cv.sum)])
    (by simp (decide := true) [DArr.arg, Objs.arg, hVc, hWc, ho, xr, gr, gv, extents, pick])
  have kr : env lRow = rows := hU.kept _ _ (by simp (decide := true) [chunksFor, DArr.arg, Objs.arg, hVc, hWc, ho, xr])
    (by simp (decide := true) [chunksFor, DArr.arg, Objs.arg, hVc, hWc, ho, xr])
  have kc : env lChan = cv := hU.kept _ _ (by simp (decide := true) [chunksFor, DArr.arg, Objs.arg, hVc, hWc, ho, xr])
    (by simp (decide := true) [chunksFor, DArr.arg, Objs.arg, hVc, hWc, ho, xr])
  refine ⟨⟨none, (env lRow).length, F env⟩, ?_, rfl, by rw [kr], fun i hi => ?_⟩
  · rw [he]; rfl
  dsimp only
  subst hF
  dsimp only
  rw [fetch_row hU V (by decide) hVc (by simp) (by rw [kr]; exact hi),
    fetch_row hU W (by decide) hWc (by simp) (by rw [kr]; exact hi),
    objs_fetch hU o (by simp) (by rw [kr, ho]) (by rw [ho]; exact hi),
    objs_fetch hU x (by simp) (by rw [kr, xr]) (by rw [xr]; exact hi), xb i hi]
  obtain ⟨m, hm⟩ : ∃ m, cv.length = m + 1 := ⟨cv.length - 1, by have := List.length_pos_iff.2 gv.ne_nil; omega⟩
  rw [kr, kc, hm, List.range_succ_eq_map]
  by_cases h0 : m = 0
  · subst h0
    rw [if_pos rfl]
    simp only [List.range_zero, List.map_nil, List.map_cons, onlyBlock, bind, Except.bind, Nest.firsts, Nest.item0,
      Nest.array, blockOff_zero, blockRows, ← hV, ← hW]
    cases o.block i with
    | error e => rfl
    | ok b => rfl
  · rw [if_neg (by omega)]
    obtain ⟨m, rfl⟩ := Nat.exists_eq_succ_of_ne_zero h0
    simp [onlyBlock, List.range_succ_eq_map, bind, Except.bind]

/-- With streams: what gridding each row block gives. -/
theorem part_streams [AddCommMonoid K] (lib : Lib R K) {vis : DArr K} {uvw : DArr R} {flags : DArr Bool}
    {weights freq : DArr R} {rows cv cf cw : List Nat} {nchan ncorr : Nat} (wmin wmax : R)
    (h : GridArgs vis uvw flags weights freq rows cv cf cw nchan ncorr) {o : Objs (Baselines R)} (ho : o.rows = rows)
    {c : Nat} (hc : c < ncorr) (s : ℤ) : ∃ x, gridCorr lib o vis flags weights wmin wmax (some s) c = .ok x ∧
      x.streams = some s ∧ x.blocks = rows.length ∧ ∀ i < rows.length, x.part i =
        (o.block i).bind fun b => (lib.getIndices b (blockRows flags rows cf c i) wmin wmax).bind
          fun idx => lib.ms2grid b idx (blockRows vis rows cv c i) (blockRows weights rows cw c i) := by
  obtain ⟨gr, -, -, ⟨e1, hv, rfl⟩, ⟨e2, hf, h2⟩, ⟨e3, hw, h3⟩, ⟨gv, -⟩, ⟨gf, -⟩, -, -⟩ := h
  obtain ⟨x, hx, xr, xb⟩ := indices_ok lib (flags := flags) (c := c) wmin wmax gr ho gf
  simp only [gridCorr, corrSlice_ok hv hc, corrSlice_ok hf (h2 ▸ hc), corrSlice_ok hw (h3 ▸ hc), hx, bind, Except.bind,
    pure, Except.pure]
  refine ⟨_, rfl, rfl, by rw [xr], fun i hi => ?_⟩
  dsimp only
  rw [if_pos ⟨by simpa using hi, by simpa using hi, by rw [ho]; exact hi⟩, xb i hi]
  cases o.block i with
  | error e => rfl
  | ok b => simp [Except.bind, blockRows, DArr.block, blockOff_zero]

/-- The contributions of the samples of a row block. -/
def blockGrid [AddCommMonoid K] (lib : Lib R K) (vis : DArr K) (uvw : DArr R) (flags : DArr Bool)
    (weights freq : DArr R) (rows : List Nat) (nchan c : Nat) (wmin wmax : R) (i u v : Nat) : K :=
  ∑ r ∈ Finset.range (blockSize rows i), ∑ f ∈ Finset.range nchan,
    if Selected lib uvw flags freq wmin wmax c (blockOff rows i + r) f then
        lib.contrib (fun k => uvw.val [blockOff rows i + r, k]) (freq.val [f]) (vis.val [blockOff rows i + r, f, c])
          (weights.val [blockOff rows i + r, f, c]) u v else 0

/-- One row block gridded with its channels in one block. -/
theorem part_value [AddCommMonoid K] (lib : Lib R K) (vis : DArr K) (uvw : DArr R) (flags : DArr Bool)
    (weights freq : DArr R) (rows : List Nat) (nchan c i : Nat) (wmin wmax : R) :
    ((lib.getIndices (blockBaselines uvw freq rows nchan i) (blockRows flags rows [nchan] c i) wmin wmax).bind fun idx =>
      lib.ms2grid (blockBaselines uvw freq rows nchan i) idx (blockRows vis rows [nchan] c i)
        (blockRows weights rows [nchan] c i)) =
    .ok (blockGrid lib vis uvw flags weights freq rows nchan c wmin wmax i) := by
  simp only [Lib.getIndices, blockRows, blockBaselines, blockSize_single, if_true, Except.bind, Lib.ms2grid, and_self]
  refine congrArg _ ?_
  funext u v
  simp [Selected, blockGrid]

/-- The sum of the row blocks is the whole grid. -/
theorem part_sum [AddCommMonoid K] (lib : Lib R K) (vis : DArr K) (uvw : DArr R) (flags : DArr Bool)
    (weights freq : DArr R) (rows : List Nat) (nchan c : Nat) (wmin wmax : R) (hu : uvw.dim 0 = rows.sum)
    (hf : freq.dim 0 = nchan) :
    (∑ i ∈ Finset.range rows.length, blockGrid lib vis uvw flags weights freq rows nchan c wmin wmax i) =
    gridPixel lib vis uvw flags weights freq wmin wmax c := by
  funext u v
  rw [Finset.sum_apply, Finset.sum_apply]
  unfold gridPixel
  rw [hu, hf]
  exact sum_blocks rows fun r => ∑ f ∈ Finset.range nchan,
      if Selected lib uvw flags freq wmin wmax c r f then
        lib.contrib (fun k => uvw.val [r, k]) (freq.val [f]) (vis.val [r, f, c]) (weights.val [r, f, c]) u v else 0

/-- Some execution computes every block. -/
theorem run_complete {M : Type*} [AddCommMonoid M] (n s : Nat) (hn : 0 < n) (hs : 0 < s) (G : ℤ → M) : ∃ L keys v,
    gridStream n s = .ok L ∧ finalKeys n s = .ok keys ∧ Run L G v ∧ ∀ k ∈ keys, v k ≠ none := by
  obtain ⟨c, L, hc, -, hL, hkeys, hk⟩ := layers_spec n s hn hs
  have key : ∀ m ≤ n, ∃ v, Run L G v ∧ ∀ k : ℤ, v k ≠ none ↔ 0 ≤ k ∧ k < m := by
    intro m
    induction m with
    | zero => exact fun _ => ⟨_, .init, fun k => by simp⟩
    | succ m ih =>
      intro hm
      obtain ⟨v, hr, hv⟩ := ih (by omega)
      have hLm := hk m
      rw [if_pos (by omega)] at hLm
      have hvm : v m = none := by
        by_contra h
        have := (hv m).1 h
        omega
      have upd : ∀ x : M, ∀ k : ℤ, Function.update v (m : ℤ) (some x) k ≠ none ↔ 0 ≤ k ∧ k < ((m + 1 : Nat) : ℤ) := by
        intro x k
        by_cases hkm : k = m
        · subst hkm; simp
        · rw [Function.update_of_ne hkm, hv]; omega
      by_cases h0 : (m : ℤ) % c = 0
      · rw [if_pos h0] at hLm
        exact ⟨_, .first v m _ hr hLm hvm rfl, upd _⟩
      · rw [if_neg h0] at hLm
        have hm0 : m ≠ 0 := by rintro rfl; simp at h0
        obtain ⟨g, hg⟩ := Option.ne_none_iff_exists'.1 ((hv ((m : ℤ) - 1)).2 (by omega))
        exact ⟨_, .next v m _ _ g hr hLm hvm rfl hg, upd _⟩
  obtain ⟨v, hr, hv⟩ := key n le_rfl
  refine ⟨L, _, v, hL, hkeys, hr, fun k hk => ?_⟩
  obtain ⟨i, hi, rfl⟩ := List.mem_map.1 hk
  rw [hv]
  have : 0 < (i + 1) * c := Nat.mul_pos (by omega) hc
  omega

theorem mapM_range {β : Type} (f : Nat → Except PyErr β) (g : Nat → β) (n : Nat) (h : ∀ c < n, f c = .ok (g c)) :
    (List.range n).mapM f = .ok ((List.range n).map g) := by
  have key : ∀ l : List Nat, (∀ c ∈ l, f c = .ok (g c)) → l.mapM f = .ok (l.map g) := by
    intro l
    induction l with
    | nil => intro _; rfl
    | cons a l ih =>
      intro hl
      rw [List.mapM_cons, hl a (by simp), ih fun c hc => hl c (by simp [hc])]
      rfl
  exact key _ fun c hc => h c (List.mem_range.1 hc)

/-- The lazy grid of each correlation. -/
theorem daskGrid_ok [AddCommMonoid K] (lib : Lib R K) {vis : DArr K} {uvw : DArr R} {flags : DArr Bool}
    {weights freq : DArr R} {rows cv cf cw : List Nat} {nchan ncorr : Nat} (wmin wmax : R)
    (h : GridArgs vis uvw flags weights freq rows cv cf cw nchan ncorr) (streams : Option ℤ) (P : Nat → CorrGrid K → Prop)
    (hP : ∀ o, daskBaselines uvw freq = .ok o → o.rows = rows →
      (∀ i < rows.length, o.block i = .ok (blockBaselines uvw freq rows nchan i)) → ∀ c < ncorr,
      ∃ x, gridCorr lib o vis flags weights wmin wmax streams c = .ok x ∧ P c x) :
    ∃ grids, daskGrid lib vis uvw flags weights freq wmin wmax streams = .ok grids ∧ grids.length = ncorr ∧
      ∀ c < ncorr, ∃ x, grids[c]? = some x ∧ P c x := by
  obtain ⟨o, ho, hr, hb⟩ := baselines_ok h.goodRows h.uvw h.freq
  obtain ⟨e, hv, he⟩ := h.vis
  have hx := hP o ho hr hb
  have : Inhabited (CorrGrid K) := ⟨⟨none, 0, fun _ => .error .valueError⟩⟩
  choose! x hx1 hx2 using hx
  refine ⟨(List.range ncorr).map x, ?_, by simp, fun c hc => ⟨x c, by simp [hc], hx2 c hc⟩⟩
  have hm := mapM_range (gridCorr lib o vis flags weights wmin wmax streams) x ncorr hx1
  have hne : (List.range ncorr).map x ≠ [] := by
    have := h.someCorr
    intro h0
    have := congrArg List.length h0
    simp at this
    omega
  simp [daskGrid, h.freq, hv, he, ho, hm, bind, Except.bind, h.someCorr.ne']

/-- **C122** Gridding dask arrays whose channels are in one chunk: for any chunks of the rows and any positive number of
streams, or none, the grid of each correlation can be computed, and whatever the order in which the scheduler runs the
tasks, each pixel is the sum of the contributions of all samples of the whole arrays that are not flagged and in range. -/
theorem C122_grid_partial [AddCommMonoid K] (lib : Lib R K) {vis : DArr K} {uvw : DArr R} {flags : DArr Bool}
    {weights freq : DArr R} {rows : List Nat} {nchan ncorr : Nat} (wmin wmax : R)
    (h : GridArgs vis uvw flags weights freq rows [nchan] [nchan] [nchan] nchan ncorr) (streams : Option ℤ)
    (hs : ∀ s ∈ streams, 0 < s) :
    ∃ grids, daskGrid lib vis uvw flags weights freq wmin wmax streams = .ok grids ∧ grids.length = ncorr ∧
      ∀ c < ncorr, ∃ x, grids[c]? = some x ∧ (∃ g, x.Evaluates g) ∧
        ∀ g, x.Evaluates g → ∀ u v, g u v = gridPixel lib vis uvw flags weights freq wmin wmax c u v := by
  have hu : uvw.dim 0 = rows.sum := by simp [DArr.dim, DArr.axis, h.uvw]
  have hf : freq.dim 0 = nchan := by simp [DArr.dim, DArr.axis, h.freq]
  have hpos : 0 < rows.length := List.length_pos_iff.2 h.goodRows.ne_nil
  refine daskGrid_ok lib wmin wmax h streams _ fun o ho hr hb c hc => ?_
  cases streams with
  | none =>
    obtain ⟨x, hx, e1, e2, e3⟩ := part_none lib wmin wmax h hr hc
    have e3 : ∀ i < rows.length, x.part i = .ok (blockGrid lib vis uvw flags weights freq rows nchan c wmin wmax i) := fun i hi => by
      rw [e3 i hi, if_pos List.length_singleton, hb i hi]
      exact part_value lib vis uvw flags weights freq rows nchan c i wmin wmax
    refine ⟨x, hx, ⟨_, fun i => blockGrid lib vis uvw flags weights freq rows nchan c wmin wmax i.toNat,
      fun i hi => e3 i (e2 ▸ hi), by rw [e1]⟩, ?_⟩
    rintro g ⟨part, hp, hg⟩ u v
    rw [e1] at hg
    rw [hg, e2, Finset.sum_congr rfl fun i hi => ?_, part_sum lib vis uvw flags weights freq rows nchan c wmin wmax hu hf]
    have hi := Finset.mem_range.1 hi
    have := hp i (e2 ▸ hi)
    rw [e3 i hi] at this
    exact (Except.ok.inj this).symm
  | some s =>
    obtain ⟨s, rfl⟩ := Int.eq_ofNat_of_zero_le (hs s rfl).le
    have hs0 : 0 < s := by have := hs s rfl; omega
    obtain ⟨x, hx, e1, e2, e3⟩ := part_streams lib wmin wmax h hr hc s
    have e3 : ∀ i < rows.length, x.part i = .ok (blockGrid lib vis uvw flags weights freq rows nchan c wmin wmax i) := fun i hi => by
      rw [e3 i hi, hb i hi]
      exact part_value lib vis uvw flags weights freq rows nchan c i wmin wmax
    refine ⟨x, hx, ?_, ?_⟩
    · have hr := run_complete rows.length s hpos hs0 fun i : ℤ =>
        blockGrid lib vis uvw flags weights freq rows nchan c wmin wmax i.toNat
      obtain ⟨L, keys, v, h1, h2, h3, h4⟩ := hr
      refine ⟨(keys.map fun k => (v k).getD 0).sum, fun i => blockGrid lib vis uvw flags weights freq rows nchan c wmin wmax
        i.toNat, fun i hi => e3 i (e2 ▸ hi), ?_⟩
      rw [e1, e2]
      exact ⟨L, keys, v, h1, h2, h3, h4, rfl⟩
    · rintro g ⟨part, hp, hg⟩ u v
      rw [e1, e2] at hg
      obtain ⟨L, keys, w, h1, h2, h3, h4, rfl⟩ := hg
      obtain ⟨L', keys', h1', h2', hsum⟩ := C80_sum rows.length s hpos hs0 part
      cases h1.symm.trans h1'
      cases h2.symm.trans h2'
      rw [hsum w h3 h4, Finset.sum_congr rfl fun i hi => ?_,
        part_sum lib vis uvw flags weights freq rows nchan c wmin wmax hu hf]
      have hi := Finset.mem_range.1 hi
      have := hp i (e2 ▸ hi)
      rw [e3 i hi] at this
      exact (Except.ok.inj this).symm

/-- **C122** Frequencies in several chunks are refused. -/
theorem C122_frequency_chunks [AddCommMonoid K] (lib : Lib R K) (vis : DArr K) (uvw : DArr R) (flags : DArr Bool)
    (weights freq : DArr R) (wmin wmax : R) (streams : Option ℤ) (h : (freq.axis 0).length ≠ 1) :
    daskGrid lib vis uvw flags weights freq wmin wmax streams = .error .valueError := by
  exact if_pos h

/-- **C122** Visibilities, flags or weights in several chunks along the channels: gridding any row block raises. -/
theorem C122_channel_chunks [AddCommMonoid K] (lib : Lib R K) {vis : DArr K} {uvw : DArr R} {flags : DArr Bool}
    {weights freq : DArr R} {rows cv cf cw : List Nat} {nchan ncorr : Nat} (wmin wmax : R)
    (h : GridArgs vis uvw flags weights freq rows cv cf cw nchan ncorr) (streams : Option ℤ)
    (hsame : streams = none → cv = cw) (hsplit : cv.length ≠ 1 ∨ cf.length ≠ 1 ∨ cw.length ≠ 1) :
    ∃ grids, daskGrid lib vis uvw flags weights freq wmin wmax streams = .ok grids ∧ grids.length = ncorr ∧
      ∀ c < ncorr, ∃ x, grids[c]? = some x ∧ 0 < x.blocks ∧ ∀ i < x.blocks, ∃ e, x.part i = .error e := by
  have hpos : 0 < rows.length := List.length_pos_iff.2 h.goodRows.ne_nil
  have hfirst : ∀ l : List Nat, GoodChunks l → l.length ≠ 1 → l.sum ≠ blockSize l 0 := by
    intro l hg hl h0
    rcases hg with rfl | ⟨hne, hp⟩
    · simp at hl
    · match l, hne with
      | [a], _ => simp at hl
      | a :: b :: l, _ =>
        have := hp b (by simp)
        simp [blockSize] at h0
        omega
  have hbad : ∀ c i, ∃ e, ((lib.getIndices (blockBaselines uvw freq rows nchan i) (blockRows flags rows cf c i) wmin wmax).bind
      fun idx => lib.ms2grid (blockBaselines uvw freq rows nchan i) idx (blockRows vis rows cv c i)
        (blockRows weights rows cw c i)) = .error e := by
    intro c i
    by_cases h1 : blockSize cf 0 = nchan
    · have h2 : ¬ (blockSize cv 0 = nchan ∧ blockSize cw 0 = nchan) := by
        rintro ⟨h2, h3⟩
        rcases hsplit with h' | h' | h'
        · exact hfirst cv h.goodVis.1 h' (by rw [h.goodVis.2, h2])
        · exact hfirst cf h.goodFlags.1 h' (by rw [h.goodFlags.2, h1])
        · exact hfirst cw h.goodWeights.1 h' (by rw [h.goodWeights.2, h3])
      simp only [Lib.getIndices, blockRows, blockBaselines, h1, if_true, Except.bind, Lib.ms2grid]
      refine ⟨_, if_neg ?_⟩
      simpa using h2
    · have e : lib.getIndices (blockBaselines uvw freq rows nchan i) (blockRows flags rows cf c i) wmin wmax =
          .error .runtimeError := if_neg (by simpa [blockRows, blockBaselines] using h1)
      rw [e]
      exact ⟨_, rfl⟩
  refine daskGrid_ok lib wmin wmax h streams _ fun o ho hr hb c hc => ?_
  cases streams with
  | none =>
    obtain rfl := hsame rfl
    obtain ⟨x, hx, e1, e2, e3⟩ := part_none lib wmin wmax h hr hc
    refine ⟨x, hx, by omega, fun i hi => ?_⟩
    rw [e3 i (e2 ▸ hi), hb i (e2 ▸ hi)]
    split_ifs with h1
    · exact hbad c i
    · exact ⟨_, rfl⟩
  | some s =>
    obtain ⟨x, hx, e1, e2, e3⟩ := part_streams lib wmin wmax h hr hc s
    refine ⟨x, hx, by omega, fun i hi => ?_⟩
    rw [e3 i (e2 ▸ hi), hb i (e2 ▸ hi)]
    exact hbad c i

end Verif.Nifty
