/-
Lemmas about averaging by blocks.
-/
import Verif.Averaging.DaskSpec
import Verif.Averaging.Props3

set_option autoImplicit false
set_option linter.unusedSectionVars false

namespace Verif.Averaging

open Function

variable {K : Type*} [Field K] [DecidableEq K]

theorem block_block (x : AvgIn K) (r0 n0 c0 : Nat) : x.block r0 n0 c0 = (x.block r0 0 0).block 0 n0 c0 := by
  simp only [AvgIn.block, Option.map_map, comp_def, Nat.zero_add]

/-! ### Offsets of aligned chunks -/

theorem blockOff_succ (l : List Nat) (k : Nat) (hk : k < l.length) :
    blockOff l (k + 1) = blockOff l k + blockSize l k := by
  rw [blockOff, blockOff, List.sum_take_succ _ _ hk, blockSize]
  simp [List.getD_eq_getElem?_getD, List.getElem?_eq_getElem hk]

theorem aligned_off {bin : Nat} {l : List Nat} (h : BinAligned bin l) (hb : 1 ≤ bin) (k : Nat) (hk : k < l.length) :
    bin ∣ blockOff l k ∧ blockOff (outChunks bin l) k = blockOff l k / bin := by
  induction k with
  | zero => simp [blockOff]
  | succ k ih =>
    obtain ⟨h1, h2⟩ := ih (by omega)
    have hd := h k hk
    have hs : blockSize (outChunks bin l) k = blockSize l k / bin := by
      have e : blockSize (outChunks bin l) k = (blockSize l k + bin - 1) / bin := by
        simp [blockSize, outChunks, List.getElem?_eq_getElem (show k < l.length by omega)]
      obtain ⟨m, hm⟩ := hd
      rw [e, hm, show bin * m + bin - 1 = (bin - 1) + bin * m by omega, Nat.add_mul_div_left _ _ (by omega),
        Nat.div_eq_of_lt (a := bin - 1) (by omega), Nat.zero_add, Nat.mul_div_cancel_left _ (by omega)]
    rw [blockOff_succ l k (by omega), blockOff_succ _ k (by simp [outChunks]; omega), h2, hs]
    refine ⟨Nat.dvd_add h1 hd, ?_⟩
    rw [Nat.add_div_of_dvd_right h1]

theorem aligned_end {bin : Nat} {l : List Nat} (h : BinAligned bin l) (k : Nat) (hk : k < l.length) :
    bin ∣ blockSize l k ∨ blockOff l k + blockSize l k = l.sum := by
  by_cases hl : k + 1 < l.length
  · exact Or.inl (h k hl)
  · right
    rw [← blockOff_succ l k hk, blockOff, List.take_of_length_le (by omega)]

/-- The channels of an output channel of a block are those of the same output channel of the whole. -/
theorem fibre_block {bin : Nat} {l : List Nat} (h : BinAligned bin l) (hb : 1 ≤ bin) {k fo : Nat} (hk : k < l.length)
    (hfo : fo < blockSize (outChunks bin l) k) :
    fibre l.sum (channelMapper l.sum bin).1 (blockOff (outChunks bin l) k + fo) =
      (fibre (blockSize l k) (channelMapper (blockSize l k) bin).1 fo).map
        (addLeftEmbedding (blockOff l k)) := by
  obtain ⟨hd, ho⟩ := aligned_off h hb k hk
  have he := aligned_end h k hk
  have hs : blockSize (outChunks bin l) k = (blockSize l k + bin - 1) / bin := by
    simp [blockSize, outChunks, List.getElem?_eq_getElem hk]
  rw [hs] at hfo
  have hm1 := (channelMapper_spec (nchan := l.sum) hb).1
  have hm2 := (channelMapper_spec (nchan := blockSize l k) hb).1
  obtain ⟨q, hq⟩ := hd
  have hqd : blockOff l k / bin = q := by rw [hq, Nat.mul_div_cancel_left _ (by omega)]
  rw [ho, hqd]
  ext c
  simp only [fibre, Finset.mem_filter, Finset.mem_range, Finset.mem_map, addLeftEmbedding_apply]
  constructor
  · rintro ⟨hc, hc'⟩
    rw [hm1 c hc] at hc'
    have hlo : bin * (q + fo) ≤ c := by rw [← hc']; exact Nat.mul_div_le c bin
    have hhi : c < bin * (q + fo) + bin := by
      rw [← hc']; exact Nat.lt_mul_div_succ c (by omega)
    rw [Nat.mul_add] at hlo hhi
    have hin : c - bin * q < blockSize l k := by
      rcases he with ⟨m, hm⟩ | he
      · have : fo < m := by
          rw [hm, show bin * m + bin - 1 = (bin - 1) + bin * m by omega, Nat.add_mul_div_left _ _ (by omega),
            Nat.div_eq_of_lt (a := bin - 1) (by omega), Nat.zero_add] at hfo
          exact hfo
        have h2 : bin * (fo + 1) ≤ bin * m := Nat.mul_le_mul_left _ this
        rw [Nat.mul_add, Nat.mul_one] at h2
        omega
      · omega
    refine ⟨c - bin * q, ⟨hin, ?_⟩, by omega⟩
    rw [hm2 _ hin]
    apply Nat.div_eq_of_lt_le
    · rw [Nat.mul_comm]; omega
    · rw [Nat.mul_comm (fo + 1) bin, Nat.mul_add, Nat.mul_one]; omega
  · rintro ⟨f, ⟨hf, hf'⟩, rfl⟩
    have hlt : blockOff l k + f < l.sum := blockOff_lt hf
    refine ⟨hlt, ?_⟩
    rw [hm1 _ hlt, hq, Nat.mul_add_div (by omega), ← hm2 f hf, hf']

/-! ### Cube columns -/

section cube
variable (b : AvgIn K) {rm : RowMapOutput} {fr : Option (Nat → Nat)} {bin n : Nat} {l : List Nat} {k fo : Nat}

theorem famSamples_block (h : BinAligned bin l) (hb : 1 ≤ bin) (hk : k < l.length)
    (hfo : fo < blockSize (outChunks bin l) k) (s : Bool) (o c0 co : Nat) :
    famSamples n l.sum rm fr (channelMapper l.sum bin).1 b.flag s o (blockOff (outChunks bin l) k + fo) (c0 + co) =
      (famSamples n (blockSize l k) rm fr (channelMapper (blockSize l k) bin).1
        (b.block 0 (blockOff l k) c0).flag s o fo co).map
        ((Embedding.refl Nat).prodMap (addLeftEmbedding (blockOff l k))) := by
  unfold famSamples samples
  rw [fibre_block h hb hk hfo]
  ext p
  simp only [Finset.mem_filter, Finset.mem_product, Finset.mem_map, Embedding.prodMap, Embedding.coeFn_mk,
    Prod.map, Embedding.refl_apply, addLeftEmbedding_apply, Prod.exists, Prod.ext_iff]
  have hflag : ∀ r f, isChanFlagged (b.block 0 (blockOff l k) c0).flag r f co =
      isChanFlagged b.flag r (blockOff l k + f) (c0 + co) := by
    intro r f
    unfold isChanFlagged AvgIn.block
    cases b.flag <;> simp
  constructor
  · rintro ⟨⟨hr, f, hf, hf2⟩, hp⟩
    refine ⟨p.1, f, ⟨⟨hr, hf⟩, ?_⟩, rfl, hf2⟩
    rw [hflag, hf2]; exact hp
  · rintro ⟨r, f, ⟨⟨hr, hf⟩, hp⟩, h1, h2⟩
    rw [hflag] at hp
    subst h1
    refine ⟨⟨hr, f, hf, h2⟩, ?_⟩
    rw [← h2]; exact hp

theorem sampleWt_block (n0 c0 r f c : Nat) :
    sampleWt (b.block 0 n0 c0).weightSpectrum (b.block 0 n0 c0).weight r f c =
      sampleWt b.weightSpectrum b.weight r (n0 + f) (c0 + c) := by
  unfold sampleWt AvgIn.block
  cases b.weightSpectrum <;> cases b.weight <;> simp

/-- Every accumulator of a block is the accumulator of the whole at the shifted cell. -/
theorem cubeLoop_block (h : BinAligned bin l) (hb : 1 ≤ bin) (hk : k < l.length)
    (hfo : fo < blockSize (outChunks bin l) k) (s : Bool) {nc ncorr : Nat} (o c0 co : Nat) (hco : co < nc)
    (hco' : c0 + co < ncorr) :
    let p := (cubeLoop n (blockSize l k) nc rm fr (channelMapper (blockSize l k) bin).1
      (b.block 0 (blockOff l k) c0).cubeCols ⟨CubeAcc.zero, CubeAcc.zero⟩).pick s
    let w := (cubeLoop n l.sum ncorr rm fr (channelMapper l.sum bin).1 b.cubeCols
      ⟨CubeAcc.zero, CubeAcc.zero⟩).pick s
    let f := blockOff (outChunks bin l) k + fo
    p.counts o fo co = w.counts o f (c0 + co) ∧
    (b.vis.isSome → p.vis o fo co = w.vis o f (c0 + co) ∧ p.visW o fo co = w.visW o f (c0 + co)) ∧
    (b.weightSpectrum.isSome → p.ws o fo co = w.ws o f (c0 + co)) ∧
    (b.sigmaSpectrum.isSome → p.sigma o fo co = w.sigma o f (c0 + co) ∧ p.sigmaW o fo co = w.sigmaW o f (c0 + co)) := by
  intro p w f
  have hp := cubeLoop_vals (n := n) (nchan := blockSize l k) (ncorr := nc) (rm := rm) (flagRow := fr)
    (chanMap := (channelMapper (blockSize l k) bin).1) (cols := (b.block 0 (blockOff l k) c0).cubeCols) s o fo co hco
  have hw := cubeLoop_vals (n := n) (nchan := l.sum) (ncorr := ncorr) (rm := rm) (flagRow := fr)
    (chanMap := (channelMapper l.sum bin).1) (cols := b.cubeCols) s o f (c0 + co) hco'
  simp only at hp hw
  obtain ⟨p1, p2, p3, p4⟩ := hp
  obtain ⟨w1, w2, w3, w4⟩ := hw
  have hS := famSamples_block b (rm := rm) (fr := fr) (n := n) h hb hk hfo s o c0 co
  have hsum : ∀ g : Nat × Nat → K, ∑ q ∈ famSamples n l.sum rm fr (channelMapper l.sum bin).1 b.flag s o f (c0 + co), g q =
      ∑ q ∈ famSamples n (blockSize l k) rm fr (channelMapper (blockSize l k) bin).1
        (b.block 0 (blockOff l k) c0).flag s o fo co, g (q.1, blockOff l k + q.2) := by
    intro g
    rw [hS, Finset.sum_map]
    rfl
  refine ⟨?_, ?_, ?_, ?_⟩
  · refine p1.trans (Eq.trans ?_ w1.symm)
    change _ = (famSamples n l.sum rm fr (channelMapper l.sum bin).1 b.flag s o f (c0 + co)).card
    rw [hS, Finset.card_map]
    rfl
  · intro hv
    obtain ⟨v, hv⟩ := Option.isSome_iff_exists.1 hv
    have hv' : (b.block 0 (blockOff l k) c0).cubeCols.vis = some fun r f c => v (0 + r) (blockOff l k + f) (c0 + c) := by
      simp [AvgIn.cubeCols, AvgIn.block, hv]
    obtain ⟨a1, a2⟩ := p2 _ hv'
    obtain ⟨b1, b2⟩ := w2 v hv
    constructor
    · refine a1.trans (Eq.trans ?_ b1.symm)
      refine Eq.trans ?_ (hsum fun q => v q.1 q.2 (c0 + co) * sampleWt b.weightSpectrum b.weight q.1 q.2 (c0 + co)).symm
      refine Finset.sum_congr rfl fun q _ => ?_
      simp only [AvgIn.cubeCols, sampleWt_block, Nat.zero_add]
    · refine a2.trans (Eq.trans ?_ b2.symm)
      refine Eq.trans ?_ (hsum fun q => sampleWt b.weightSpectrum b.weight q.1 q.2 (c0 + co)).symm
      refine Finset.sum_congr rfl fun q _ => ?_
      simp only [AvgIn.cubeCols, sampleWt_block]
  · intro hv
    obtain ⟨v, hv⟩ := Option.isSome_iff_exists.1 hv
    have hv' : (b.block 0 (blockOff l k) c0).cubeCols.weightSpectrum =
        some fun r f c => v (0 + r) (blockOff l k + f) (c0 + c) := by
      simp [AvgIn.cubeCols, AvgIn.block, hv]
    refine (p3 _ hv').trans (Eq.trans ?_ (w3 v hv).symm)
    refine Eq.trans ?_ (hsum fun q => v q.1 q.2 (c0 + co)).symm
    refine Finset.sum_congr rfl fun q _ => ?_
    simp only [Nat.zero_add]
  · intro hv
    obtain ⟨v, hv⟩ := Option.isSome_iff_exists.1 hv
    have hv' : (b.block 0 (blockOff l k) c0).cubeCols.sigmaSpectrum =
        some fun r f c => v (0 + r) (blockOff l k + f) (c0 + c) := by
      simp [AvgIn.cubeCols, AvgIn.block, hv]
    obtain ⟨a1, a2⟩ := p4 _ hv'
    obtain ⟨b1, b2⟩ := w4 v hv
    constructor
    · refine a1.trans (Eq.trans ?_ b1.symm)
      refine Eq.trans ?_ (hsum fun q => v q.1 q.2 (c0 + co) ^ 2 * sampleWt b.weightSpectrum b.weight q.1 q.2 (c0 + co) ^ 2).symm
      refine Finset.sum_congr rfl fun q _ => ?_
      simp only [AvgIn.cubeCols, sampleWt_block, Nat.zero_add]
    · refine a2.trans (Eq.trans ?_ b2.symm)
      refine Eq.trans ?_ (hsum fun q => sampleWt b.weightSpectrum b.weight q.1 q.2 (c0 + co)).symm
      refine Finset.sum_congr rfl fun q _ => ?_
      simp only [AvgIn.cubeCols, sampleWt_block]

end cube

/-! ### Channel columns -/

theorem chanAverage_block {bin : Nat} {l : List Nat} (h : BinAligned bin l) (hb : 1 ≤ bin) {k fo : Nat}
    (hk : k < l.length) (hfo : fo < blockSize (outChunks bin l) k) {M : Type*} [AddCommMonoid M] (x : Nat → M) :
    forRange (blockSize l k) (fun _ => (0 : M)) (fun f a => add1 a ((channelMapper (blockSize l k) bin).1 f)
      (x (blockOff l k + f))) fo =
    forRange l.sum (fun _ => (0 : M)) (fun f a => add1 a ((channelMapper l.sum bin).1 f) (x f))
      (blockOff (outChunks bin l) k + fo) := by
  rw [chanAccum, chanAccum, fibre_block h hb hk hfo, Finset.sum_map]
  rfl

/-! ### Row columns -/

section row
variable (sqrt : K → K) (junk : Nat → Int) (n : Nat) (rm : RowMapOutput) (fr : Option (Nat → Nat))
  (ant1 ant2 : Nat → Int) (cols : RowCols K)

/-- The state of `row_average` after its loop, with `nc` correlations. -/
abbrev rowLoop (nc : Nat) : RowAcc K :=
  forRange n
    ({ counts := fun _ => 0, ant1 := junk, ant2 := junk, timeCentroid := fun _ => 0,
       exposure := fun _ => 0, uvw := fun _ _ => 0, weight := fun _ _ => 0,
       sigma := fun _ _ => 0, sigmaW := fun _ _ => 0 } : RowAcc K)
    (rowStep rm fr ant1 ant2 cols nc)

theorem rowLoop_ant (nc : Nat) :
    (rowLoop junk n rm fr ant1 ant2 cols nc).ant1 = forRange n junk (fun r a => update a (rm.map r) (ant1 r)) ∧
    (rowLoop junk n rm fr ant1 ant2 cols nc).ant2 = forRange n junk (fun r a => update a (rm.map r) (ant2 r)) := by
  unfold rowLoop
  induction n with
  | zero => exact ⟨rfl, rfl⟩
  | succ n ih =>
    simp only [forRange_succ]
    rw [(rowStep_ant _ _ _ _ _ _ _ _).1, (rowStep_ant _ _ _ _ _ _ _ _).2, ih.1, ih.2]
    exact ⟨rfl, rfl⟩

/-- Averages of rows do not depend on the number of correlations, except for how many are computed. -/
theorem rowAverage_corr (nc nc' : Nat) (hn : nc ≤ nc') :
    let p := rowAverage sqrt junk n rm fr ant1 ant2 cols nc
    let w := rowAverage sqrt junk n rm fr ant1 ant2 cols nc'
    p.ant1 = w.ant1 ∧ p.ant2 = w.ant2 ∧ p.timeCentroid = w.timeCentroid ∧ p.exposure = w.exposure ∧
    (∀ a b, p.uvw = some a → w.uvw = some b → ∀ o, ∀ u < 3, a o u = b o u) ∧
    (∀ a b, p.weight = some a → w.weight = some b → ∀ o, ∀ c < nc, a o c = b o c) ∧
    (∀ a b, p.sigma = some a → w.sigma = some b → ∀ o, ∀ c < nc, a o c = b o c) := by
  have hc : ∀ o, (rowLoop junk n rm fr ant1 ant2 cols nc).counts o = (rowLoop junk n rm fr ant1 ant2 cols nc').counts o := by
    intro o
    rw [forRange_obs (fun s : RowAcc K => s.counts o) _ _ _ _ (fun r s _ => rowStep_counts rm fr ant1 ant2 cols nc r s o),
      forRange_obs (fun s : RowAcc K => s.counts o) _ _ _ _ (fun r s _ => rowStep_counts rm fr ant1 ant2 cols nc' r s o)]
  have ha := rowLoop_ant junk n rm fr ant1 ant2 cols
  intro p w
  refine ⟨(ha nc).1.trans (ha nc').1.symm, (ha nc).2.trans (ha nc').2.symm, ?_, ?_, ?_, ?_, ?_⟩
  · change Option.map _ _ = Option.map _ _
    cases ht : cols.timeCentroid with
    | none => rfl
    | some t =>
      simp only [Option.map_some, Option.some.injEq]
      funext o
      have e : (rowLoop junk n rm fr ant1 ant2 cols nc).timeCentroid o =
          (rowLoop junk n rm fr ant1 ant2 cols nc').timeCentroid o := by
        rw [forRange_obs (fun s : RowAcc K => s.timeCentroid o) _ _ _ _ (fun r s _ => rowStep_tc rm fr ant1 ant2 cols nc r s o t ht),
          forRange_obs (fun s : RowAcc K => s.timeCentroid o) _ _ _ _ (fun r s _ => rowStep_tc rm fr ant1 ant2 cols nc' r s o t ht)]
      have := hc o
      simp only [rowLoop] at e this
      rw [e, this]
  · change Option.map _ _ = Option.map _ _
    cases ht : cols.exposure with
    | none => rfl
    | some t =>
      simp only [Option.map_some, Option.some.injEq]
      funext o
      have e : (rowLoop junk n rm fr ant1 ant2 cols nc).exposure o =
          (rowLoop junk n rm fr ant1 ant2 cols nc').exposure o := by
        rw [forRange_obs (fun s : RowAcc K => s.exposure o) _ _ _ _ (fun r s _ => rowStep_exposure rm fr ant1 ant2 cols nc r s o t ht),
          forRange_obs (fun s : RowAcc K => s.exposure o) _ _ _ _ (fun r s _ => rowStep_exposure rm fr ant1 ant2 cols nc' r s o t ht)]
      exact e
  · intro a b h1 h2 o u hu
    change Option.map _ _ = _ at h1
    change Option.map _ _ = _ at h2
    cases ht : cols.uvw with
    | none => rw [ht] at h1; cases h1
    | some t =>
      rw [ht] at h1 h2
      simp only [Option.map_some, Option.some.injEq] at h1 h2
      subst h1 h2
      have e : (rowLoop junk n rm fr ant1 ant2 cols nc).uvw o u =
          (rowLoop junk n rm fr ant1 ant2 cols nc').uvw o u := by
        rw [forRange_obs (fun s : RowAcc K => s.uvw o u) _ _ _ _ (fun r s _ => rowStep_uvw rm fr ant1 ant2 cols nc r s o u t ht hu),
          forRange_obs (fun s : RowAcc K => s.uvw o u) _ _ _ _ (fun r s _ => rowStep_uvw rm fr ant1 ant2 cols nc' r s o u t ht hu)]
      have := hc o
      simp only [rowLoop] at e this
      simp only [e, this]
  · intro a b h1 h2 o c hcn
    change Option.map _ _ = _ at h1
    change Option.map _ _ = _ at h2
    cases ht : cols.weight with
    | none => rw [ht] at h1; cases h1
    | some t =>
      rw [ht] at h1 h2
      simp only [Option.map_some, Option.some.injEq] at h1 h2
      subst h1 h2
      have e : (rowLoop junk n rm fr ant1 ant2 cols nc).weight o c =
          (rowLoop junk n rm fr ant1 ant2 cols nc').weight o c := by
        rw [forRange_obs (fun s : RowAcc K => s.weight o c) _ _ _ _ (fun r s _ => rowStep_weight rm fr ant1 ant2 cols nc r s o c t ht hcn),
          forRange_obs (fun s : RowAcc K => s.weight o c) _ _ _ _ (fun r s _ => rowStep_weight rm fr ant1 ant2 cols nc' r s o c t ht (by omega))]
      exact e
  · intro a b h1 h2 o c hcn
    change Option.map _ _ = _ at h1
    change Option.map _ _ = _ at h2
    cases ht : cols.sigma with
    | none => rw [ht] at h1; cases h1
    | some t =>
      rw [ht] at h1 h2
      simp only [Option.map_some, Option.some.injEq] at h1 h2
      subst h1 h2
      have e1 : (rowLoop junk n rm fr ant1 ant2 cols nc).sigma o c =
          (rowLoop junk n rm fr ant1 ant2 cols nc').sigma o c := by
        rw [forRange_obs (fun s : RowAcc K => s.sigma o c) _ _ _ _ (fun r s _ => (rowStep_sigma rm fr ant1 ant2 cols nc r s o c t ht hcn).1),
          forRange_obs (fun s : RowAcc K => s.sigma o c) _ _ _ _ (fun r s _ => (rowStep_sigma rm fr ant1 ant2 cols nc' r s o c t ht (by omega)).1)]
      have e2 : (rowLoop junk n rm fr ant1 ant2 cols nc).sigmaW o c =
          (rowLoop junk n rm fr ant1 ant2 cols nc').sigmaW o c := by
        rw [forRange_obs (fun s : RowAcc K => s.sigmaW o c) _ _ _ _ (fun r s _ => (rowStep_sigma rm fr ant1 ant2 cols nc r s o c t ht hcn).2),
          forRange_obs (fun s : RowAcc K => s.sigmaW o c) _ _ _ _ (fun r s _ => (rowStep_sigma rm fr ant1 ant2 cols nc' r s o c t ht (by omega)).2)]
      have := hc o
      have hcn' : c < nc' := by omega
      simp only [rowLoop] at e1 e2 this
      simp only [e1, e2, this, hcn, hcn', and_true]

end row

/-- The output row flags are present exactly when the input row flags are. -/
theorem rowMapper_flagRow {sentinel : ℚ} {n : Nat} {time interval : Nat → ℚ} {ant1 ant2 : Nat → Int}
    {fr : Option (Nat → Nat)} {secs : ℚ} {rm : RowMapOutput}
    (h : rowMapper sentinel n time interval ant1 ant2 fr secs = .ok rm) : rm.flagRow.isSome = fr.isSome := by
  unfold rowMapper at h
  simp only [bind, Except.bind, pure, Except.pure] at h
  split at h
  · cases h
  · rename_i rl hrl
    split at h
    · cases h
    · rename_i fin hfin
      cases h
      refine forRangeM_of_ok (P := fun _ s => s.outFlagRow.isSome = fr.isSome) ?_ ?_ hfin
      · cases fr <;> rfl
      · intro i s s' _ hs he
        unfold finalStep at he
        split at he
        · cases he
        · simp only at he
          split at he
          · cases he
          · split at he
            · cases he
            · rename_i g hg
              cases he
              unfold setFlagRow at hg
              cases fr with
              | none => cases hg; exact hs
              | some f =>
                simp only at hg
                split at hg
                · cases hg
                · cases hg
                  simpa using hs

theorem mergeFlags_isSome {n nchan ncorr : Nat} {fr : Option (Nat → Nat)} {fl : Option (Nat → Nat → Nat → Nat)}
    {out : Option (Nat → Nat)} (h : mergeFlags n nchan ncorr fr fl = .ok out) :
    out.isSome = (fr.isSome || fl.isSome) := by
  unfold mergeFlags at h
  cases fr <;> cases fl <;> simp only at h
  · cases h; rfl
  · cases h; rfl
  · cases h; rfl
  · split at h
    · cases h
    · cases h; rfl

end Verif.Averaging
